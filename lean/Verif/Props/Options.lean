import Verif.Model.Options
import Verif.Props.SetUp
import Verif.Props.Axis
import Verif.Props.Clone
import Mathlib.Tactic.Ring

/-!
C92: what `IGASetFromOptions` does to an IGA.
-/

set_option linter.unusedSectionVars false

namespace PetIGA.Opt
open PetIGA.Ax PetIGA.Rule PetIGA.Quad PetIGA.SetUp

variable {K V : Type} [Field K] [LinearOrder K] [IsStrictOrderedRing K]

/-! ### Specification -/

/-- The value an array option gives to direction `i`: the `i`-th one, or the first when there are not that many. -/
def valueFor {α : Type} (l : List α) (i : Nat) : Option α := if i < l.length then l[i]? else l[0]?

/-- An array option with one value gives it to every direction, otherwise the `i`-th value to direction `i`; directions
without a value keep what they had (`own`). -/
def valueOr {α : Type} (l : List α) (i : Nat) (own : α) : α :=
  match l with
  | [a] => a
  | l => (l[i]?).getD own

/-- The command line is proper: array options come with a value, and limits with at least one pair. -/
structure Proper (o : Options K V) : Prop where
  elements : o.elements ≠ some []
  degree : o.degree ≠ some []
  continuity : o.continuity ≠ some []
  limits : ∀ l, o.limits = some l → 2 ≤ l.length

/-- The axis has been given a degree and knots. -/
def Configured (ax : Axis K) : Prop := ax.p ≠ 0 ∧ ax.m ≠ 1

/-- Whether direction `i` becomes periodic: `-iga_periodic` without values makes every direction periodic. -/
def wrapFor (o : Options K V) (ax : Axis K) (i : Nat) : Bool :=
  match o.periodic with
  | none => ax.periodic
  | some [] => true
  | some l => valueOr l i ax.periodic

/-- The degree of direction `i`: from `-iga_degree`, else that of direction 0 (2 when it has none); a value that is not positive
stands for the degree the direction has. -/
def degreeFor (o : Options K V) (ax0 ax : Axis K) (i : Nat) : Int :=
  let v := match o.degree with
    | some l => (valueFor l i).getD 0
    | none => if ax0.p > 0 then ax0.p else 2
  if v < 1 then (if ax.p > 0 then ax.p else 2) else v

/-- The number of elements of direction `i`: from `-iga_elements`, else that of direction 0 (16 when it has no knots). -/
def elementsFor (o : Options K V) (ax0 ax : Axis K) (i : Nat) : Int :=
  let v := match o.elements with
    | some l => (valueFor l i).getD 0
    | none => if ax0.m > 1 then ax0.nel else 16
  if v < 1 then (if ax.m > 1 then ax.nel else 16) else v

/-- The continuity of direction `i`: from `-iga_continuity`, where -1 stands for the largest one; else the largest one if
direction 0 has a B-spline basis and 0 if it has another one. -/
def continuityFor (o : Options K V) (bt0 : BasisType) (p : Int) (i : Nat) : Int :=
  let v := match o.continuity with
    | some l => (valueFor l i).getD 0
    | none => if (match o.basisType with | some (t :: _) => t | _ => bt0) = .bspline then -1 else 0
  if v = -1 then p - 1 else v

/-- The interval of direction `i`: the `i`-th pair of `-iga_limits`, or the first when there are not that many; else that of
direction 0 (`[0,1]` when it has no knots). -/
def limitsFor (o : Options K V) (ax0 : Axis K) (i : Nat) : K × K :=
  match o.limits with
  | some l =>
    let j := if 2 * i + 1 < l.length then i else 0
    ((l[2*j]?).getD 0, (l[2*j+1]?).getD 0)
  | none => if ax0.m > 1 then (ax0.U ax0.p, ax0.U (ax0.m - ax0.p)) else (0, 1)

/-! ### Running through the steps -/

theorem andThen_eq {r : Res Unit × IGA K V} {f : IGA K V → Res Unit × IGA K V} (h : (andThen r f).1 = .ok ()) :
    ∃ t, r = (.ok (), t) ∧ andThen r f = f t := by
  rcases r with ⟨r, t⟩
  obtain ⟨h1, h2⟩ := andThen_ok h
  have h1 : r = .ok () := h1
  exact ⟨t, by rw [h1], h2⟩

/-- A relation that every step satisfies holds between begin and end of a loop, however it ends. -/
theorem forDirs_rel (P : IGA K V → IGA K V → Prop) (hr : ∀ s, P s s) (ht : ∀ s t u, P s t → P t u → P s u)
    {f : Nat → IGA K V → Res Unit × IGA K V} (hf : ∀ i s, P s (f i s).2) :
    ∀ (is : List Nat) (s : IGA K V), P s (forDirs f is s).2
  | [], s => hr s
  | i :: is, s => by
    rcases andThen_cases (f i s) (forDirs f is) with ⟨_, h⟩ | ⟨_, h⟩
    · show P s (andThen (f i s) (forDirs f is)).2
      rw [h]
      exact ht _ _ _ (hf i s) (forDirs_rel P hr ht hf is _)
    · show P s (andThen (f i s) (forDirs f is)).2
      rw [h]
      exact hf i s

/-- A loop whose steps work on one direction each. -/
theorem forDirs_each {β : Type} (φ : IGA K V → Nat → β) (Inv : IGA K V → Prop) (Q : Nat → β → β → Prop)
    {f : Nat → IGA K V → Res Unit × IGA K V} : ∀ (is : List Nat),
    (∀ i ∈ is, ∀ s, Inv s → (f i s).1 = .ok () →
      Inv (f i s).2 ∧ Q i (φ s i) (φ (f i s).2 i) ∧ ∀ j, j ≠ i → φ (f i s).2 j = φ s j) →
    is.Nodup → ∀ (s : IGA K V), Inv s → (forDirs f is s).1 = .ok () →
      Inv (forDirs f is s).2 ∧ (∀ i ∈ is, Q i (φ s i) (φ (forDirs f is s).2 i)) ∧
        ∀ j, j ∉ is → φ (forDirs f is s).2 j = φ s j
  | [], _, _, s, hs, _ => ⟨hs, by simp, fun _ _ => rfl⟩
  | i :: is, hf, hn, s, hs, h => by
    have h : (andThen (f i s) (forDirs f is)).1 = .ok () := h
    obtain ⟨t, h1, h2⟩ := andThen_eq h
    have e : forDirs f (i :: is) s = forDirs f is t := h2
    rw [h2] at h
    have hst := hf i List.mem_cons_self s hs (by rw [h1])
    rw [h1] at hst
    obtain ⟨a1, a2, a3⟩ := hst
    obtain ⟨b1, b2, b3⟩ := forDirs_each φ Inv Q is (fun k hk => hf k (List.mem_cons_of_mem _ hk)) (List.nodup_cons.1 hn).2 t a1 h
    have hni := (List.nodup_cons.1 hn).1
    rw [e]
    refine ⟨b1, fun k hk => ?_, fun j hj => ?_⟩
    · rcases List.mem_cons.1 hk with rfl | hk
      · rw [b3 k hni]; exact a2
      · have := b2 k hk
        rwa [a3 k (fun hki => hni (hki ▸ hk))] at this
    · rw [b3 j fun hj' => hj (List.mem_cons_of_mem _ hj'), a3 j fun e => hj (e ▸ List.mem_cons_self)]

/-! ### Which fields a step may change -/

theorem setProcessors_frame (W : World K V) (s : IGA K V) (i n : Int) :
    ∃ ps, (setProcessors W s i n).2 = { s with procs := ps } := by
  unfold setProcessors
  split
  · exact ⟨s.procs, rfl⟩
  · cases checkDir s i with
    | ok k => dsimp only; split_ifs <;> first | exact ⟨s.procs, rfl⟩ | exact ⟨_, rfl⟩
    | err e => exact ⟨s.procs, rfl⟩
    | ub => exact ⟨s.procs, rfl⟩

theorem setProcs_frame (W : World K V) (o : Options K V) (s : IGA K V) :
    ∃ ps, (setProcs W o s).2 = { s with procs := ps } := by
  unfold setProcs
  refine forDirs_rel (fun s t => ∃ ps, t = { s with procs := ps }) (fun s => ⟨s.procs, rfl⟩) ?_ (fun i s => ?_) _ _
  · rintro s t u ⟨a, rfl⟩ ⟨b, rfl⟩; exact ⟨b, rfl⟩
  · unfold setProc
    split
    · split
      · exact setProcessors_frame W s i _
      · exact ⟨s.procs, rfl⟩
    · exact ⟨s.procs, rfl⟩

theorem modAxis_frame (s : IGA K V) (i : Nat) (f : Axis K → Res Unit × Axis K) :
    ∃ axs, (modAxis s i f).2 = { s with axes := axs } := by
  unfold modAxis
  cases s.axes[i]? with
  | none => exact ⟨s.axes, rfl⟩
  | some ax => exact ⟨_, rfl⟩

theorem setWraps_frame (o : Options K V) (s : IGA K V) : ∃ axs, (setWraps o s).2 = { s with axes := axs } := by
  unfold setWraps
  cases o.periodic with
  | none => exact ⟨s.axes, rfl⟩
  | some l =>
    dsimp only
    refine forDirs_rel (fun s t => ∃ axs, t = { s with axes := axs }) (fun s => ⟨s.axes, rfl⟩) ?_ (fun i s => ?_) _ _
    · rintro s t u ⟨a, rfl⟩ ⟨b, rfl⟩; exact ⟨b, rfl⟩
    · unfold setWrap
      split
      · exact modAxis_frame _ _ _
      · exact ⟨s.axes, rfl⟩

theorem setAxis_frame (junk mem : Int → K) (force : Bool) (nd ne nl nc : Nat) (degrs elems conts : List Int) (ulims : List K)
    (i : Nat) (s : IGA K V) :
    ∃ axs, (setAxis junk mem force nd ne nl nc degrs elems conts ulims i s).2 = { s with axes := axs } := by
  unfold setAxis
  split
  · dsimp only
    split_ifs <;> first | exact modAxis_frame _ _ _ | exact ⟨s.axes, rfl⟩
  · exact ⟨s.axes, rfl⟩

theorem setAxes_frame (W : World K V) (mem : Int → K) (o : Options K V) (s0 s : IGA K V) :
    ∃ axs, (setAxes W mem o s0 s).2 = { s with axes := axs } := by
  unfold setAxes
  refine forDirs_rel (fun s t => ∃ axs, t = { s with axes := axs }) (fun s => ⟨s.axes, rfl⟩) ?_ (fun i s => ?_) _ _
  · rintro s t u ⟨a, rfl⟩ ⟨b, rfl⟩; exact ⟨b, rfl⟩
  · exact setAxis_frame _ _ _ _ _ _ _ _ _ _ _ _ _

theorem setBasisType_frame (s : IGA K V) (i : Int) (t : BasisType) :
    ∃ bt bs b, (setBasisType s i t).2 = { s with btypes := bt, bases := bs, setup := b } := by
  have triv : ∃ bt bs b, s = { s with btypes := bt, bases := bs, setup := b } := ⟨s.btypes, s.bases, s.setup, rfl⟩
  unfold setBasisType
  split
  · exact triv
  · cases checkDir s i with
    | ok k => dsimp only; split_ifs <;> first | exact triv | exact ⟨_, _, _, rfl⟩
    | err e => exact triv
    | ub => exact triv

theorem setBases_frame (o : Options K V) (s0 s : IGA K V) :
    ∃ bt bs b, (setBases o s0 s).2 = { s with btypes := bt, bases := bs, setup := b } := by
  have triv : ∀ s : IGA K V, ∃ bt bs b, s = { s with btypes := bt, bases := bs, setup := b } :=
    fun s => ⟨s.btypes, s.bases, s.setup, rfl⟩
  unfold setBases
  split
  · refine forDirs_rel (fun s t => ∃ bt bs b, t = { s with btypes := bt, bases := bs, setup := b }) triv ?_ (fun i s => ?_) _ _
    · rintro s t u ⟨a, b, c, rfl⟩ ⟨a', b', c', rfl⟩; exact ⟨a', b', c', rfl⟩
    · unfold setBase
      split
      · exact setBasisType_frame _ _ _
      · exact triv _
  · exact triv _

/-- Only rules and the set-up flag differ. -/
def OnlyRules (s t : IGA K V) : Prop := ∃ rs b, t = { s with rules := rs, setup := b }

theorem onlyRules_refl (s : IGA K V) : OnlyRules s s := ⟨s.rules, s.setup, rfl⟩

theorem onlyRules_trans (s t u : IGA K V) (h : OnlyRules s t) (h' : OnlyRules t u) : OnlyRules s u := by
  obtain ⟨a, b, rfl⟩ := h
  obtain ⟨a', b', rfl⟩ := h'
  exact ⟨a', b', rfl⟩

theorem ruleCall_only (s : IGA K V) (k : Nat) (r : Res Unit × Rule K) : OnlyRules s (ruleCall s k r).2 := by
  rcases r with ⟨_ | _ | _, r'⟩ <;> exact ⟨_, _, rfl⟩

theorem setRuleType_only (s : IGA K V) (i : Int) (t : RuleType) : OnlyRules s (setRuleType s i t).2 := by
  unfold setRuleType
  cases checkDir s i with
  | ok k =>
    dsimp only
    split
    · split
      · exact onlyRules_refl s
      · exact ruleCall_only _ _ _
    · exact onlyRules_refl s
  | err e => exact onlyRules_refl s
  | ub => exact onlyRules_refl s

theorem setRuleSize_only (s : IGA K V) (i q : Int) : OnlyRules s (setRuleSize s i q).2 := by
  unfold setRuleSize
  cases checkDir s i with
  | ok k =>
    dsimp only
    split
    · split
      · exact onlyRules_refl s
      · exact ruleCall_only _ _ _
    · exact onlyRules_refl s
  | err e => exact onlyRules_refl s
  | ub => exact onlyRules_refl s

theorem setQuadrature_only (s : IGA K V) (i q : Int) : OnlyRules s (setQuadrature s i q).2 := by
  unfold setQuadrature
  cases checkDir s i with
  | ok k =>
    dsimp only
    split
    · split_ifs <;> first | exact onlyRules_refl s | exact ruleCall_only _ _ _
    · exact onlyRules_refl s
  | err e => exact onlyRules_refl s
  | ub => exact onlyRules_refl s

theorem andThen_only {s : IGA K V} {r : Res Unit × IGA K V} {f : IGA K V → Res Unit × IGA K V} (h : OnlyRules s r.2)
    (hf : ∀ t, OnlyRules t (f t).2) : OnlyRules s (andThen r f).2 := by
  rcases andThen_cases r f with ⟨_, h2⟩ | ⟨_, h2⟩
  · rw [h2]; exact onlyRules_trans _ _ _ h (hf _)
  · rw [h2]; exact h

theorem setRules_only (o : Options K V) (s0 s : IGA K V) : OnlyRules s (setRules o s0 s).2 := by
  unfold setRules
  split
  · refine forDirs_rel OnlyRules onlyRules_refl onlyRules_trans (fun i s => ?_) _ _
    unfold setDirRule
    split
    · next r ax t q _ _ _ _ =>
      have hu : OnlyRules s (if o.ruleType.isSome = true ∧ o.ruleSize.isSome = true then
          { s with rules := s.rules.set i (Rule.reset r) } else s) := by
        split
        · exact ⟨_, _, rfl⟩
        · exact onlyRules_refl _
      generalize (if o.ruleType.isSome = true ∧ o.ruleSize.isSome = true then
          { s with rules := s.rules.set i (Rule.reset r) } else s) = u at hu ⊢
      refine andThen_only (onlyRules_trans _ u _ hu ?_) fun t => ?_
      · split
        · exact setRuleType_only _ _ _
        · exact onlyRules_refl _
      · split
        · exact setRuleSize_only _ _ _
        · exact onlyRules_refl _
    · exact onlyRules_refl _
  · exact onlyRules_refl _

theorem setSizes_only (o : Options K V) (s : IGA K V) : OnlyRules s (setSizes o s).2 := by
  unfold setSizes
  refine forDirs_rel OnlyRules onlyRules_refl onlyRules_trans (fun i s => ?_) _ _
  unfold setDirSize
  split
  · split
    · exact setQuadrature_only _ _ _
    · exact onlyRules_refl _
  · exact onlyRules_refl _

/-! ### The steps of a successful call -/

theorem trace_before {W : World K V} {mem : Int → K} {o : Options K V} {s : IGA K V} (hl : o.load = none)
    (h : (beforeSetUp W mem o s).1 = .ok ()) :
    ∃ s1 s2 s3 s4 s5, whenSome o.dim (fun d s => setDim s d) s = (.ok (), s1) ∧
      whenSome o.dof (fun n s => setDof s n) s1 = (.ok (), s2) ∧
      whenSome o.colloc (fun b s => setCollocation s b) s2 = (.ok (), s3) ∧
      (s3.colloc && (o.ruleType.isSome || o.ruleSize.isSome || o.quadrature.isSome)) = false ∧
      setProcs W o s3 = (.ok (), s4) ∧ setWraps o s4 = (.ok (), s5) ∧
      beforeSetUp W mem o s = setAxes W mem o s s5 := by
  have h0 := h
  unfold beforeSetUp at h0
  obtain ⟨s1, e1, h1⟩ := andThen_eq h0
  rw [h1] at h0
  obtain ⟨s2, e2, h2⟩ := andThen_eq h0
  rw [h2] at h0
  obtain ⟨s3, e3, h3⟩ := andThen_eq h0
  rw [h3] at h0
  obtain ⟨s3', e3', h3'⟩ := andThen_eq h0
  rw [h3'] at h0
  have hr : (s3.colloc && (o.ruleType.isSome || o.ruleSize.isSome || o.quadrature.isSome)) = false ∧ s3 = s3' := by
    unfold reject at e3'
    split at e3'
    · simp at e3'
    · next hc => exact ⟨by simpa using hc, (Prod.mk.inj e3').2⟩
  obtain ⟨hr, rfl⟩ := hr
  obtain ⟨s4, e4, h4⟩ := andThen_eq h0
  rw [h4] at h0
  obtain ⟨s5, e5, h5⟩ := andThen_eq h0
  refine ⟨s1, s2, s3, s4, s5, e1, e2, e3, hr, e4, e5, ?_⟩
  unfold beforeSetUp
  rw [h1, h2, h3, h3', h4, h5, hl]

theorem trace {W : World K V} {mem : Int → K} {o : Options K V} {s : IGA K V} (h : (setFromOptions W mem o s).1 = .ok ()) :
    ∃ t0 t1 t2 t3 t4, (if s.stage > 0 then (.ok (), s) else beforeSetUp W mem o s) = (.ok (), t0) ∧
      whenSome o.order (fun k s => setOrder s k) t0 = (.ok (), t1) ∧ setBases o s t1 = (.ok (), t2) ∧
      setRules o s t2 = (.ok (), t3) ∧ setSizes o t3 = (.ok (), t4) ∧
      setFromOptions W mem o s = if s.setup then setUp W t4 else (.ok (), t4) := by
  have h0 := h
  unfold setFromOptions at h0
  obtain ⟨t0, e0, h1⟩ := andThen_eq h0
  rw [h1] at h0
  obtain ⟨t1, e1, h2⟩ := andThen_eq h0
  rw [h2] at h0
  obtain ⟨t2, e2, h3⟩ := andThen_eq h0
  rw [h3] at h0
  obtain ⟨t3, e3, h4⟩ := andThen_eq h0
  rw [h4] at h0
  obtain ⟨t4, e4, h5⟩ := andThen_eq h0
  refine ⟨t0, t1, t2, t3, t4, e0, e1, e2, e3, e4, ?_⟩
  unfold setFromOptions
  rw [h1, h2, h3, h4, h5]

theorem setDim_ok {s t : IGA K V} {d : Int} (h : setDim s d = (.ok (), t)) : t = { s with dim := d } ∧ 1 ≤ d ∧ d ≤ 3 := by
  unfold setDim at h
  split_ifs at h with h1 h2
  · simp at h
  · simp at h
  · exact ⟨(Prod.mk.inj h).2.symm, by omega, by omega⟩

theorem setDof_ok {s t : IGA K V} {d : Int} (h : setDof s d = (.ok (), t)) : t = { s with dof := d } := by
  unfold setDof at h
  split_ifs at h with h1 h2
  · simp at h
  · simp at h
  · exact (Prod.mk.inj h).2.symm

theorem setCollocation_ok {s t : IGA K V} {b : Bool} (h : setCollocation s b = (.ok (), t)) : t = { s with colloc := b } := by
  unfold setCollocation at h
  split_ifs at h with h1
  · simp at h
  · exact (Prod.mk.inj h).2.symm

theorem setOrder_ok {s t : IGA K V} {k : Int} (h : setOrder s k = (.ok (), t)) : t = { s with order := clip k } := by
  unfold setOrder at h
  split_ifs at h with h1
  · simp at h
  · exact (Prod.mk.inj h).2.symm

/-- Fields after the first part of a successful call. -/
theorem before_fields {W : World K V} {mem : Int → K} {o : Options K V} {s t : IGA K V} (hl : o.load = none)
    (h : beforeSetUp W mem o s = (.ok (), t)) :
    ∃ s4 s5, setWraps o s4 = (.ok (), s5) ∧ setAxes W mem o s s5 = (.ok (), t) ∧ s4.axes = s.axes ∧
      (∃ s3, setProcs W o s3 = (.ok (), s4) ∧ s3.procs = s.procs ∧ s3.dim = t.dim) ∧
      s4.dim = t.dim ∧ s5.dim = t.dim ∧
      t.dim = o.dim.getD s.dim ∧ t.dof = o.dof.getD s.dof ∧ t.colloc = o.colloc.getD s.colloc ∧ t.order = s.order ∧
      t.btypes = s.btypes ∧ t.rules = s.rules ∧ t.procs = s4.procs ∧ t.setup = s.setup ∧
      (o.dim = none ∨ (1 ≤ t.dim ∧ t.dim ≤ 3)) ∧
      (t.colloc && (o.ruleType.isSome || o.ruleSize.isSome || o.quadrature.isSome)) = false := by
  obtain ⟨s1, s2, s3, s4, s5, e1, e2, e3, hr, e4, e5, e6⟩ := trace_before hl (by rw [h])
  rw [e6] at h
  have a1 : ∃ d, s1 = { s with dim := d } ∧ d = o.dim.getD s.dim ∧ (o.dim = none ∨ (1 ≤ d ∧ d ≤ 3)) := by
    cases hd : o.dim with
    | none => rw [hd] at e1; exact ⟨s.dim, (Prod.mk.inj e1).2.symm, rfl, Or.inl rfl⟩
    | some d =>
      rw [hd] at e1
      obtain ⟨h1, h2⟩ := setDim_ok e1
      exact ⟨d, h1, rfl, Or.inr h2⟩
  have a2 : ∃ d, s2 = { s1 with dof := d } ∧ d = o.dof.getD s1.dof := by
    cases hd : o.dof with
    | none => rw [hd] at e2; exact ⟨s1.dof, (Prod.mk.inj e2).2.symm, rfl⟩
    | some d => rw [hd] at e2; exact ⟨d, setDof_ok e2, rfl⟩
  have a3 : ∃ d, s3 = { s2 with colloc := d } ∧ d = o.colloc.getD s2.colloc := by
    cases hd : o.colloc with
    | none => rw [hd] at e3; exact ⟨s2.colloc, (Prod.mk.inj e3).2.symm, rfl⟩
    | some d => rw [hd] at e3; exact ⟨d, setCollocation_ok e3, rfl⟩
  obtain ⟨d1, rfl, f1, g1⟩ := a1
  obtain ⟨d2, rfl, f2⟩ := a2
  obtain ⟨d3, rfl, f3⟩ := a3
  have a4 := setProcs_frame W o { s with dim := d1, dof := d2, colloc := d3 }
  rw [e4] at a4
  have a5 := setWraps_frame o s4
  rw [e5] at a5
  have a6 := setAxes_frame W mem o s s5
  rw [h] at a6
  obtain ⟨ps, rfl⟩ := a4
  obtain ⟨x5, rfl⟩ := a5
  obtain ⟨x6, rfl⟩ := a6
  exact ⟨_, _, e5, h, rfl, ⟨_, e4, rfl, rfl⟩, rfl, rfl, f1, f2, f3, rfl, rfl, rfl, rfl, rfl, g1, hr⟩

/-- Fields after the second part. -/
theorem after_fields {o : Options K V} {s t0 t1 t2 t3 t4 : IGA K V}
    (e1 : whenSome o.order (fun k s => setOrder s k) t0 = (.ok (), t1)) (e2 : setBases o s t1 = (.ok (), t2))
    (e3 : setRules o s t2 = (.ok (), t3)) (e4 : setSizes o t3 = (.ok (), t4)) :
    (t4.dim = t0.dim ∧ t4.dof = t0.dof ∧ t4.colloc = t0.colloc ∧ t4.procs = t0.procs ∧ t4.axes = t0.axes) ∧
    (t1.dim = t0.dim ∧ t1.btypes = t0.btypes ∧ t2.dim = t0.dim ∧ t3.dim = t0.dim ∧ t4.btypes = t2.btypes ∧
      t2.rules = t0.rules ∧ t2.axes = t0.axes ∧ t3.axes = t0.axes) ∧
    t4.order = (o.order.map clip).getD t0.order := by
  have a1 : ∃ k, t1 = { t0 with order := k } ∧ k = (o.order.map clip).getD t0.order := by
    cases hd : o.order with
    | none => rw [hd] at e1; exact ⟨t0.order, (Prod.mk.inj e1).2.symm, rfl⟩
    | some d => rw [hd] at e1; exact ⟨_, setOrder_ok e1, rfl⟩
  have a2 := setBases_frame o s t1
  rw [e2] at a2
  have a3 := setRules_only o s t2
  rw [e3] at a3
  have a4 := setSizes_only o t3
  rw [e4] at a4
  obtain ⟨k, rfl, f1⟩ := a1
  obtain ⟨x1, x2, x3, rfl⟩ := a2
  obtain ⟨y1, y2, rfl⟩ := a3
  obtain ⟨z1, z2, rfl⟩ := a4
  exact ⟨⟨rfl, rfl, rfl, rfl, rfl⟩, ⟨rfl, rfl, rfl, rfl, rfl, rfl, rfl, rfl⟩, f1⟩

/-! ### Array options -/

theorem given_none {α : Type} (n : Nat) : given (none : Option (List α)) n = [] := by simp [given]

theorem pick_some {α : Type} {l : List α} (A : List α) {n i : Nat} (hi : i < n) (hl : l ≠ []) :
    pick (given (some l) n).length (overlay (some l) n A) i = valueFor l i := by
  unfold pick overlay valueFor given
  simp only [Option.getD_some, List.length_take]
  have h0 : 0 < l.length := List.length_pos_iff.2 hl
  by_cases h : i < l.length
  · rw [if_pos (by omega), if_pos h, List.getElem?_append_left (by rw [List.length_take]; omega), List.getElem?_take_of_lt hi]
  · rw [if_neg (by omega), if_neg h, List.getElem?_append_left (by rw [List.length_take]; omega),
      List.getElem?_take_of_lt (by omega)]

theorem pick_none {α : Type} (A : List α) (n i : Nat) :
    pick (given (none : Option (List α)) n).length (overlay none n A) i = A[0]? := by
  simp [pick, overlay, given]

theorem spread_some {α : Type} (l A : List α) {n i : Nat} (own : α) (hi : i < n) (hA : A[i]? = some own) :
    (spread (some l) n A)[i]? = some (valueOr l i own) := by
  have key : ∀ g, g = given (some l) n → (match g with
    | [a] => A.map fun _ => a
    | _ => g ++ A.drop g.length)[i]? = some (valueOr l i own) := by
    intro g hg
    unfold given at hg
    have hg : g = l.take n := hg
    have hlen : g.length = min n l.length := by rw [hg, List.length_take]
    have gen : (∀ a, l ≠ [a]) → (g ++ A.drop g.length)[i]? = some (valueOr l i own) := by
      intro hne
      have hv : valueOr l i own = (l[i]?).getD own := by
        unfold valueOr
        split
        · exact absurd rfl (hne _)
        · rfl
      rw [hv]
      by_cases h : i < l.length
      · rw [List.getElem?_append_left (by omega), hg, List.getElem?_take_of_lt hi, List.getElem?_eq_getElem h]; rfl
      · rw [List.getElem?_append_right (by omega), List.getElem?_drop, List.getElem?_eq_none (l := l) (by omega)]
        rw [show g.length + (i - g.length) = i by omega, hA]; rfl
    rcases g with _ | ⟨a, _ | ⟨b, g⟩⟩
    · exact gen fun a ha => by rw [ha] at hlen; simp at hlen; omega
    · rw [List.getElem?_map, hA]
      show some a = _
      congr 1
      by_cases h1 : ∃ b, l = [b]
      · obtain ⟨b, rfl⟩ := h1
        rw [List.take_of_length_le (by simp; omega)] at hg
        simpa [valueOr] using hg
      · have hn : n = 1 := by
          rcases l with _ | ⟨x, _ | ⟨y, l⟩⟩
          · simp at hg
          · exact absurd ⟨x, rfl⟩ h1
          · simp at hlen; omega
        subst hn
        obtain rfl : i = 0 := by omega
        rcases l with _ | ⟨x, _ | ⟨y, l⟩⟩
        · simp at hg
        · exact absurd ⟨x, rfl⟩ h1
        · simp at hg
          simp [valueOr, hg]
    · refine gen fun x hx => ?_
      rw [hx] at hlen
      simp at hlen
      omega
  exact key _ rfl

/-! ### Axes -/

theorem modAxis_ok {s t : IGA K V} {i : Nat} {f : Axis K → Res Unit × Axis K} (h : modAxis s i f = (.ok (), t)) :
    ∃ ax, s.axes[i]? = some ax ∧ (f ax).1 = .ok () ∧ t.axes[i]? = some (f ax).2 ∧
      ∀ j, j ≠ i → t.axes[j]? = s.axes[j]? := by
  unfold modAxis at h
  cases hax : s.axes[i]? with
  | none => rw [hax] at h; simp at h
  | some ax =>
    rw [hax] at h
    obtain ⟨h1, rfl⟩ := Prod.mk.inj h
    have hi : i < s.axes.length := by
      rw [List.getElem?_eq_some_iff] at hax
      exact hax.1
    exact ⟨ax, rfl, h1, by simp [hi], fun j hj => by simp [List.getElem?_set_ne (Ne.symm hj)]⟩

theorem setWraps_axes {o : Options K V} {s t : IGA K V} (h : setWraps o s = (.ok (), t)) (i : Nat) (hi : i < dirs s)
    (ax : Axis K) (hax : s.axes[i]? = some ax) : t.axes[i]? = some { ax with periodic := wrapFor o ax i } := by
  unfold setWraps at h
  unfold wrapFor
  cases hp : o.periodic with
  | none =>
    rw [hp] at h
    obtain ⟨-, rfl⟩ := Prod.mk.inj h
    exact hax
  | some l =>
    rw [hp] at h
    dsimp only at h
    have hA : (s.axes.map fun ax => ax.periodic)[i]? = some ax.periodic := by rw [List.getElem?_map, hax]; rfl
    have hB : (wraps l s)[i]? = some (match (some l : Option (List Bool)) with
        | none => ax.periodic
        | some [] => true
        | some l => valueOr l i ax.periodic) := by
      rcases l with _ | ⟨a, l⟩
      · have : wraps [] s = s.axes.map fun _ => true := by simp [wraps]
        rw [this, List.getElem?_map, hax]; rfl
      · have hne : (a :: l).take (dirs s) ≠ [] := by
          obtain ⟨k, hk⟩ : ∃ k, dirs s = k + 1 := ⟨dirs s - 1, by omega⟩
          rw [hk]; simp
        have : wraps (a :: l) s = spread (some (a :: l)) (dirs s) (s.axes.map fun ax => ax.periodic) := by
          unfold wraps
          split
          · next h0 => exact absurd h0 hne
          · rfl
        rw [this]
        exact spread_some (a :: l) _ ax.periodic hi hA
    generalize wraps l s = B at h hB
    have key := forDirs_each (fun s j => s.axes[j]?) (fun _ => True)
      (fun j old new => ∀ (ax : Axis K) w, old = some ax → B[j]? = some w → new = some { ax with periodic := w })
      (f := setWrap B) (List.range (dirs s)) (fun j _ u _ hu => by
        unfold setWrap at hu ⊢
        cases hw : B[j]? with
        | none => rw [hw] at hu; simp at hu
        | some w =>
          rw [hw] at hu
          dsimp only at hu ⊢
          obtain ⟨ax', h1, h2, h3, h4⟩ := modAxis_ok (t := (modAxis u j fun ax => setPeriodic ax w).2)
            (f := fun ax => setPeriodic ax w) (by rw [← hu])
          refine ⟨trivial, fun ax'' w' h' hw' => ?_, h4⟩
          rw [h1] at h'
          cases h'
          cases hw'
          exact h3) List.nodup_range s trivial (by rw [h])
    rw [h] at key
    exact key.2.1 i (List.mem_range.2 hi) ax _ hax hB

theorem rebuild_ok {junk mem : Int → K} {w : Bool} {p N : Int} {a b : K} {C : Int} (hp : 1 ≤ p)
    (h : (rebuild junk mem w p N a b C).1 = .ok ()) :
    GoodInit { Ax.create junk with periodic := w, p := p } (rebuild junk mem w p N a b C).2 N (if C = -1 then p - 1 else C)
      (fun i => a + (i:K)/(N:K) * (b-a)) := by
  have e : rebuild junk mem w p N a b C = initUniform mem { Ax.create junk with periodic := w, p := p } N a b C := by
    unfold rebuild setPeriodic setDegree
    simp only [axThen]
    rw [if_neg (by omega), if_neg (by simp [Ax.create])]
  rw [e] at h ⊢
  exact C07_initUniform mem _ N a b C h

theorem setAxis_ok {junk mem : Int → K} {force : Bool} {nd ne nl nc : Nat} {degrs elems conts : List Int} {ulims : List K}
    {i : Nat} {s t : IGA K V} (h : setAxis junk mem force nd ne nl nc degrs elems conts ulims i s = (.ok (), t)) :
    (∀ j, j ≠ i → t.axes[j]? = s.axes[j]?) ∧
    ∀ ax, s.axes[i]? = some ax → ∃ p N C a b ax', pick nd degrs i = some p ∧ pick ne elems i = some N ∧ pick nc conts i = some C ∧
      ulims[2 * (if i < nl then i else 0)]? = some a ∧ ulims[2 * (if i < nl then i else 0) + 1]? = some b ∧
      t.axes[i]? = some ax' ∧
      ((force = true ∨ ¬ Configured ax) → GoodInit { Ax.create junk with
          periodic := ax.periodic, p := if p < 1 then (if ax.p > 0 then ax.p else 2) else p } ax'
          (if N < 1 then (if ax.m > 1 then ax.nel else 16) else N)
          (if C = -1 then (if p < 1 then (if ax.p > 0 then ax.p else 2) else p) - 1 else C)
          (fun k => a + (k:K)/((if N < 1 then (if ax.m > 1 then ax.nel else 16) else N : Int):K) * (b-a))) ∧
      (¬ (force = true ∨ ¬ Configured ax) → ax' = ax) := by
  have hc : ∀ ax : Axis K, (force = true ∨ ¬ Configured ax) ↔ (force = true ∨ ax.p = 0 ∨ ax.m = 1) := by
    intro ax
    unfold Configured
    constructor
    · rintro (h | h)
      · exact Or.inl h
      · right
        by_contra hn
        push Not at hn
        exact h hn
    · rintro (h | h | h)
      · exact Or.inl h
      · exact Or.inr fun hh => hh.1 h
      · exact Or.inr fun hh => hh.2 h
  unfold setAxis at h
  split at h
  · next ax p N C a b e1 e2 e3 e4 e5 e6 =>
    dsimp only at h
    generalize hP : (if p < 1 then (if ax.p > 0 then ax.p else 2) else p) = P at h
    generalize hM : (if N < 1 then (if ax.m > 1 then ax.nel else 16) else N) = M at h
    have hP1 : 1 ≤ P := by rw [← hP]; split_ifs <;> omega
    by_cases hf : force = true ∨ ax.p = 0 ∨ ax.m = 1
    · rw [if_pos hf] at h
      obtain ⟨ax0, h1, h2, h3, h4⟩ := modAxis_ok h
      refine ⟨h4, fun ax' hax' => ?_⟩
      rw [e1] at hax'
      cases hax'
      refine ⟨p, N, C, a, b, _, e2, e3, e4, e5, e6, h3, fun _ => ?_, fun hn => absurd ((hc ax).2 hf) hn⟩
      rw [hP, hM]
      exact rebuild_ok hP1 h2
    · rw [if_neg hf] at h
      obtain ⟨-, rfl⟩ := Prod.mk.inj h
      refine ⟨fun _ _ => rfl, fun ax' hax' => ?_⟩
      rw [e1] at hax'
      cases hax'
      exact ⟨p, N, C, a, b, ax, e2, e3, e4, e5, e6, e1, fun hn => absurd ((hc ax).1 hn) hf, fun _ => rfl⟩
  · simp at h

theorem limits_pick {o : Options K V} (hp : Proper o) (ax0 : Axis K) (axs : List (Axis K)) {n i : Nat} (hi : i < n) {a b : K}
    (ha : (overlay o.limits (2*n) (limitDefaults (0,1) (ax0 :: axs)))[2 * (if i < (given o.limits (2*n)).length / 2 then i else 0)]? = some a)
    (hb : (overlay o.limits (2*n) (limitDefaults (0,1) (ax0 :: axs)))[2 * (if i < (given o.limits (2*n)).length / 2 then i else 0) + 1]? = some b) :
    limitsFor o ax0 i = (a, b) := by
  unfold limitsFor
  cases hl : o.limits with
  | none =>
    rw [hl] at ha hb
    simp only [overlay, given, Option.getD_none, List.take_nil, List.length_nil, Nat.zero_div, Nat.not_lt_zero, if_false,
      List.nil_append, List.drop_zero, limitDefaults] at ha hb
    simp at ha hb
    dsimp only
    rw [← ha, ← hb]
  | some l =>
    rw [hl] at ha hb
    have h2 := hp.limits l hl
    have hlen : (given (some l) (2*n)).length = min (2*n) l.length := by simp [given]
    have e : (if i < (given (some l) (2*n)).length / 2 then i else 0) = (if 2 * i + 1 < l.length then i else 0) := by
      rw [hlen]
      split_ifs <;> omega
    rw [e] at ha hb
    dsimp only
    have hj : 2 * (if 2 * i + 1 < l.length then i else 0) + 1 < min (2*n) l.length := by split_ifs <;> omega
    generalize (if 2 * i + 1 < l.length then i else 0) = j at ha hb hj ⊢
    unfold overlay at ha hb
    rw [List.getElem?_append_left (by omega)] at ha hb
    unfold given at ha hb
    simp only [Option.getD_some] at ha hb
    rw [List.getElem?_take_of_lt (by omega)] at ha hb
    rw [ha, hb]; rfl

/-- Direction `i` is a direction of the IGA: there are `dim` of them, and all three as long as `dim` is not known. -/
def Used (s : IGA K V) (i : Nat) : Prop := (i:Int) < s.dim ∨ s.dim ≤ 0 ∧ i < 3

instance (s : IGA K V) (i : Nat) : Decidable (Used s i) := by unfold Used; infer_instance

theorem used_iff (s : IGA K V) (i : Nat) : Used s i ↔ i < dirs s := by
  unfold Used dirs
  split <;> omega

/-- **C92, axes.**  After a successful `IGASetFromOptions` (before `IGASetUp`, no file given), every direction `i` of the IGA
carries the periodicity the options ask for and
* if `-iga_elements` or `-iga_degree` was given, or the axis had no degree or knots, it is the uniform axis with the degree, the
  number of elements, the interval and the continuity the options ask for;
* otherwise it is what it was (in particular, `-iga_limits` and `-iga_continuity` then have no effect). -/
theorem C92_axes (W : World K V) (mem : Int → K) (o : Options K V) (s : IGA K V) (hp : Proper o) (hl : o.load = none)
    (hst : s.stage = 0) (hsu : s.setup = false) (ax0 ax1 ax2 : Axis K) (haxs : s.axes = [ax0, ax1, ax2])
    (bt0 bt1 bt2 : BasisType) (hbt : s.btypes = [bt0, bt1, bt2])
    (hok : (setFromOptions W mem o s).1 = .ok ()) (i : Nat) (hi : Used (setFromOptions W mem o s).2 i) (ax : Axis K)
    (hax : s.axes[i]? = some ax) :
    ∃ ax', (setFromOptions W mem o s).2.axes[i]? = some ax' ∧
      ((o.elements.isSome ∨ o.degree.isSome ∨ ¬ Configured ax) →
        GoodInit { Ax.create W.junk with periodic := wrapFor o ax i, p := degreeFor o ax0 ax i } ax'
          (elementsFor o ax0 ax i) (continuityFor o bt0 (degreeFor o ax0 ax i) i)
          (fun k => (limitsFor o ax0 i).1 + (k:K)/(elementsFor o ax0 ax i : K) * ((limitsFor o ax0 i).2 - (limitsFor o ax0 i).1))) ∧
      (¬ (o.elements.isSome ∨ o.degree.isSome ∨ ¬ Configured ax) → ax' = { ax with periodic := wrapFor o ax i }) := by
  rw [used_iff] at hi
  obtain ⟨t0, t1, t2, t3, t4, e0, e1, e2, e3, e4, e5⟩ := trace hok
  rw [hsu] at e5
  rw [if_neg (by omega)] at e0
  obtain ⟨⟨f1, -, -, -, f5⟩, -⟩ := after_fields e1 e2 e3 e4
  obtain ⟨s4, s5, w1, w2, w3, -, w4, w5, -⟩ := before_fields hl e0
  have e5 : setFromOptions W mem o s = (.ok (), t4) := e5
  rw [e5] at hi ⊢
  have hd : dirs t4 = dirs s5 := by unfold dirs; rw [f1, w5]
  have hd4 : dirs t4 = dirs s4 := by unfold dirs; rw [f1, w4]
  have hi : i < dirs t4 := hi
  have hax5 := setWraps_axes w1 i (by omega) ax (by rw [w3]; exact hax)
  unfold setAxes at w2
  dsimp only at w2
  have key := forDirs_each (fun s j => s.axes[j]?) (fun _ => True)
    (fun j old new => ∀ ax, old = some ax → ∃ p N C a b ax', pick (given o.degree (dirs s5)).length (overlay o.degree (dirs s5) (degreeDefaults 2 s.axes)) j = some p ∧
      pick (given o.elements (dirs s5)).length (overlay o.elements (dirs s5) (elementDefaults 16 s.axes)) j = some N ∧
      pick (given o.continuity (dirs s5)).length (overlay o.continuity (dirs s5) (contDefaults o (dirs s5) s)) j = some C ∧
      (overlay o.limits (2 * dirs s5) (limitDefaults (0,1) s.axes))[2 * (if j < (given o.limits (2 * dirs s5)).length / 2 then j else 0)]? = some a ∧
      (overlay o.limits (2 * dirs s5) (limitDefaults (0,1) s.axes))[2 * (if j < (given o.limits (2 * dirs s5)).length / 2 then j else 0) + 1]? = some b ∧
      new = some ax' ∧
      (((o.elements.isSome || o.degree.isSome) = true ∨ ¬ Configured ax) → GoodInit { Ax.create W.junk with
          periodic := ax.periodic, p := if p < 1 then (if ax.p > 0 then ax.p else 2) else p } ax'
          (if N < 1 then (if ax.m > 1 then ax.nel else 16) else N)
          (if C = -1 then (if p < 1 then (if ax.p > 0 then ax.p else 2) else p) - 1 else C)
          (fun k => a + (k:K)/((if N < 1 then (if ax.m > 1 then ax.nel else 16) else N : Int):K) * (b-a))) ∧
      (¬ ((o.elements.isSome || o.degree.isSome) = true ∨ ¬ Configured ax) → ax' = ax))
    (List.range (dirs s5)) (fun j _ u _ hu => by
      obtain ⟨g1, g2⟩ := setAxis_ok (i := j) (s := u) (t := _) (Prod.ext hu rfl)
      exact ⟨trivial, g2, g1⟩) List.nodup_range s5 trivial (by rw [w2])
  rw [w2] at key
  obtain ⟨p, N, C, a, b, ax', q1, q2, q3, q4, q5, q6, q7, q8⟩ := key.2.1 i (List.mem_range.2 (by omega)) _ hax5
  rw [f5]
  refine ⟨ax', q6, ?_, ?_⟩
  · intro hc
    have q7 := q7 (by
      rcases hc with h | h | h
      · left; rw [h]; rfl
      · left; rw [h]; simp
      · right; exact h)
    dsimp only at q7
    have r1 : degreeFor o ax0 ax i = if p < 1 then (if ax.p > 0 then ax.p else 2) else p := by
      have : (match o.degree with
        | some l => (valueFor l i).getD 0
        | none => if ax0.p > 0 then ax0.p else 2) = p := by
        cases hdg : o.degree with
        | none =>
          rw [hdg, pick_none, haxs] at q1
          simpa [degreeDefaults] using q1
        | some l =>
          rw [hdg, pick_some _ (by omega) (fun h => hp.degree (by rw [hdg, h]))] at q1
          dsimp only
          rw [q1]; rfl
      unfold degreeFor
      rw [this]
    have r2 : elementsFor o ax0 ax i = if N < 1 then (if ax.m > 1 then ax.nel else 16) else N := by
      have : (match o.elements with
        | some l => (valueFor l i).getD 0
        | none => if ax0.m > 1 then ax0.nel else 16) = N := by
        cases hdg : o.elements with
        | none =>
          rw [hdg, pick_none, haxs] at q2
          simpa [elementDefaults] using q2
        | some l =>
          rw [hdg, pick_some _ (by omega) (fun h => hp.elements (by rw [hdg, h]))] at q2
          dsimp only
          rw [q2]; rfl
      unfold elementsFor
      rw [this]
    have r3 : ∀ P, continuityFor o bt0 P i = if C = -1 then P - 1 else C := by
      intro P
      have : (match o.continuity with
        | some l => (valueFor l i).getD 0
        | none => if (match o.basisType with | some (t :: _) => t | _ => bt0) = .bspline then -1 else 0) = C := by
        cases hdg : o.continuity with
        | none =>
          rw [hdg, pick_none] at q3
          unfold contDefaults basisTypes at q3
          rw [List.getElem?_map, hbt] at q3
          have hb0 : (spread o.basisType (dirs s5) [bt0, bt1, bt2])[0]? = some (match o.basisType with | some (t :: _) => t | _ => bt0) := by
            cases hbo : o.basisType with
            | none => simp [spread, overlay, given]
            | some l =>
              rw [spread_some l [bt0, bt1, bt2] bt0 (by omega) rfl]
              rcases l with _ | ⟨x, _ | ⟨y, l⟩⟩ <;> simp [valueOr]
          rw [hb0] at q3
          simpa [PETSC_DECIDE] using q3
        | some l =>
          rw [hdg, pick_some _ (by omega) (fun h => hp.continuity (by rw [hdg, h]))] at q3
          dsimp only
          rw [q3]; rfl
      unfold continuityFor
      rw [this]
    have r4 : limitsFor o ax0 i = (a, b) := by
      rw [haxs] at q4 q5
      exact limits_pick hp ax0 [ax1, ax2] (by omega) q4 q5
    rw [r1, r2, r3, r4]
    exact q7
  · intro hc
    refine q8 fun h => hc ?_
    rcases h with h | h
    · rw [Bool.or_eq_true] at h
      rcases h with h | h
      · exact Or.inl h
      · exact Or.inr (Or.inl h)
    · exact Or.inr (Or.inr h)

/-! ### The other fields -/

theorem checkDir_ok {s : IGA K V} {i k : Nat} (h : checkDir s (i:Int) = .ok k) : k = i := by
  unfold checkDir at h
  rw [if_neg (by omega)] at h
  generalize (if s.dim > 0 then s.dim else 3) = d at h
  split_ifs at h
  cases h
  simp

theorem setProc_ok {W : World K V} {ps : List Int} {i : Nat} {s t : IGA K V} (h : setProc W ps i s = (.ok (), t))
    (hi : i < s.procs.length) :
    t.procs.length = s.procs.length ∧
    (∃ np, ps[i]? = some np ∧ (0 < np → t.procs[i]? = some np) ∧ (np ≤ 0 → t.procs[i]? = s.procs[i]?)) ∧
      ∀ j, j ≠ i → t.procs[j]? = s.procs[j]? := by
  unfold setProc at h
  split at h
  · next np hnp =>
    split at h
    · next hpos =>
      unfold setProcessors at h
      split at h
      · simp at h
      · cases hc : checkDir s (i:Int) with
        | ok k =>
          obtain rfl := checkDir_ok hc
          rw [hc] at h
          dsimp only at h
          generalize procProd s.procs _ k np = P at h
          split_ifs at h
          iterate 3 exact absurd (Prod.mk.inj h).1 (by simp)
          obtain ⟨-, rfl⟩ := Prod.mk.inj h
          exact ⟨by simp, ⟨np, hnp, fun _ => by simp [hi], fun _ => by omega⟩, fun j hj => by
            simp [List.getElem?_set_ne (Ne.symm hj)]⟩
        | err e => rw [hc] at h; simp at h
        | ub => rw [hc] at h; simp at h
    · obtain ⟨-, rfl⟩ := Prod.mk.inj h
      exact ⟨rfl, ⟨np, hnp, fun _ => by omega, fun _ => rfl⟩, fun _ _ => rfl⟩
  · simp at h

theorem setBase_ok {ts : List BasisType} {i : Nat} {s t : IGA K V} (h : setBase ts i s = (.ok (), t))
    (hi : i < s.btypes.length) :
    t.btypes.length = s.btypes.length ∧ (∃ b, ts[i]? = some b ∧ t.btypes[i]? = some b) ∧
      ∀ j, j ≠ i → t.btypes[j]? = s.btypes[j]? := by
  unfold setBase at h
  split at h
  · next b hb =>
    unfold setBasisType at h
    split at h
    · simp at h
    · cases hc : checkDir s (i:Int) with
      | ok k =>
        obtain rfl := checkDir_ok hc
        rw [hc] at h
        dsimp only at h
        split_ifs at h with hs
        · obtain ⟨-, rfl⟩ := Prod.mk.inj h
          exact ⟨rfl, ⟨b, hb, hs⟩, fun _ _ => rfl⟩
        · obtain ⟨-, rfl⟩ := Prod.mk.inj h
          exact ⟨by simp, ⟨b, hb, by simp [hi]⟩, fun j hj => by simp [List.getElem?_set_ne (Ne.symm hj)]⟩
      | err e => rw [hc] at h; simp at h
      | ub => rw [hc] at h; simp at h
  · simp at h

theorem ruleSetUp_keeps (r : Rule K) : (Rule.setUp r).2.type = r.type ∧ (Rule.setUp r).2.nqp = r.nqp := by
  unfold Rule.setUp
  split
  · exact ⟨rfl, rfl⟩
  · dsimp only
    split <;> exact ⟨rfl, rfl⟩

theorem ruleCall_ok {s t : IGA K V} {k : Nat} {r : Res Unit × Rule K} (h : ruleCall s k r = (.ok (), t)) (hk : k < s.rules.length) :
    r.1 = .ok () ∧ t.rules[k]? = some r.2 ∧ t.rules.length = s.rules.length ∧ t.axes = s.axes ∧
      ∀ j, j ≠ k → t.rules[j]? = s.rules[j]? := by
  rcases r with ⟨_ | _ | _, r'⟩
  · obtain ⟨-, rfl⟩ := Prod.mk.inj h
    exact ⟨rfl, by simp [hk], by simp, rfl, fun j hj => by simp [List.getElem?_set_ne (Ne.symm hj)]⟩
  · exact absurd (Prod.mk.inj h).1 (by simp)
  · exact absurd (Prod.mk.inj h).1 (by simp)

theorem setRuleType_ok {s t : IGA K V} {i : Nat} {ty : RuleType} {r : Rule K} (h : setRuleType s (i:Int) ty = (.ok (), t))
    (hr : s.rules[i]? = some r) :
    ∃ r', t.rules[i]? = some r' ∧ r'.type = ty ∧ r'.nqp = r.nqp ∧ t.rules.length = s.rules.length ∧ t.axes = s.axes ∧
      ∀ j, j ≠ i → t.rules[j]? = s.rules[j]? := by
  have hk : i < s.rules.length := (List.getElem?_eq_some_iff.1 hr).1
  unfold setRuleType at h
  cases hc : checkDir s (i:Int) with
  | ok k =>
    obtain rfl := checkDir_ok hc
    rw [hc] at h
    dsimp only at h
    rw [hr] at h
    dsimp only at h
    split_ifs at h with ht
    · obtain ⟨-, rfl⟩ := Prod.mk.inj h
      exact ⟨r, hr, ht, rfl, rfl, rfl, fun _ _ => rfl⟩
    · obtain ⟨h1, h2, h3, h4, h5⟩ := ruleCall_ok h hk
      refine ⟨_, h2, ?_, ?_, h3, h4, h5⟩
      · unfold Rule.setType
        rw [if_neg ht]
        dsimp only
        split_ifs
        · exact (ruleSetUp_keeps _).1
        · rfl
      · unfold Rule.setType
        rw [if_neg ht]
        dsimp only
        split_ifs
        · exact (ruleSetUp_keeps _).2
        · rfl
  | err e => rw [hc] at h; simp at h
  | ub => rw [hc] at h; simp at h

theorem setSize_keeps {r : Rule K} {q : Int} (h : (Rule.setSize r q).1 = .ok ()) :
    (Rule.setSize r q).2.type = r.type ∧ (Rule.setSize r q).2.nqp = q := by
  unfold Rule.setSize at h ⊢
  split_ifs at h ⊢ with h1 h2
  · exact ⟨rfl, h2⟩
  · exact ⟨(ruleSetUp_keeps _).1, (ruleSetUp_keeps _).2⟩

theorem setRuleSize_ok {s t : IGA K V} {i : Nat} {q : Int} {r : Rule K} (h : setRuleSize s (i:Int) q = (.ok (), t))
    (hr : s.rules[i]? = some r) :
    ∃ r', t.rules[i]? = some r' ∧ r'.type = r.type ∧ r'.nqp = q ∧ t.rules.length = s.rules.length ∧ t.axes = s.axes ∧
      ∀ j, j ≠ i → t.rules[j]? = s.rules[j]? := by
  have hk : i < s.rules.length := (List.getElem?_eq_some_iff.1 hr).1
  unfold setRuleSize at h
  cases hc : checkDir s (i:Int) with
  | ok k =>
    obtain rfl := checkDir_ok hc
    rw [hc] at h
    dsimp only at h
    rw [hr] at h
    dsimp only at h
    split_ifs at h with ht
    · obtain ⟨-, rfl⟩ := Prod.mk.inj h
      exact ⟨r, hr, rfl, ht, rfl, rfl, fun _ _ => rfl⟩
    · obtain ⟨h1, h2, h3, h4, h5⟩ := ruleCall_ok h hk
      exact ⟨_, h2, (setSize_keeps h1).1, (setSize_keeps h1).2, h3, h4, h5⟩
  | err e => rw [hc] at h; simp at h
  | ub => rw [hc] at h; simp at h

theorem setQuadrature_ok {s t : IGA K V} {i : Nat} {q : Int} {r : Rule K} (hq : 0 < q) (h : setQuadrature s (i:Int) q = (.ok (), t))
    (hr : s.rules[i]? = some r) :
    ∃ r', t.rules[i]? = some r' ∧ r'.type = r.type ∧ r'.nqp = q ∧ t.rules.length = s.rules.length ∧ t.axes = s.axes ∧
      ∀ j, j ≠ i → t.rules[j]? = s.rules[j]? := by
  have hk : i < s.rules.length := (List.getElem?_eq_some_iff.1 hr).1
  unfold setQuadrature at h
  cases hc : checkDir s (i:Int) with
  | ok k =>
    obtain rfl := checkDir_ok hc
    rw [hc] at h
    dsimp only at h
    rw [hr] at h
    cases hax : s.axes[k]? with
    | none => rw [hax] at h; simp at h
    | some ax =>
      rw [hax] at h
      dsimp only at h
      rw [if_neg (c := q = -1 ∧ ax.p > 0) (by omega), if_neg (by omega)] at h
      split_ifs at h with ht
      · obtain ⟨-, rfl⟩ := Prod.mk.inj h
        exact ⟨r, hr, rfl, ht, rfl, rfl, fun _ _ => rfl⟩
      · obtain ⟨h1, h2, h3, h4, h5⟩ := ruleCall_ok h hk
        exact ⟨_, h2, (setSize_keeps h1).1, (setSize_keeps h1).2, h3, h4, h5⟩
  | err e => rw [hc] at h; simp at h
  | ub => rw [hc] at h; simp at h

theorem setDirRule_length {f1 f2 : Bool} {types : List RuleType} {sizes : List Int} {i : Nat} {s t : IGA K V}
    (h : setDirRule f1 f2 types sizes i s = (.ok (), t)) : t.rules.length = s.rules.length := by
  unfold setDirRule at h
  split at h
  · next r ax ty q e1 e2 e3 e4 =>
    dsimp only at h
    have hk : i < s.rules.length := (List.getElem?_eq_some_iff.1 e1).1
    have hu : ∃ r0, (if f1 = true ∧ f2 = true then { s with rules := s.rules.set i (Rule.reset r) } else s).rules[i]? = some r0 ∧
        (if f1 = true ∧ f2 = true then { s with rules := s.rules.set i (Rule.reset r) } else s).rules.length = s.rules.length := by
      split
      · exact ⟨Rule.reset r, by simp [hk], by simp⟩
      · exact ⟨_, e1, rfl⟩
    generalize (if f1 = true ∧ f2 = true then { s with rules := s.rules.set i (Rule.reset r) } else s) = u at h hu
    obtain ⟨r0, hr0, hlen⟩ := hu
    obtain ⟨v, g1, g2⟩ := andThen_eq (by rw [h])
    rw [g2] at h
    have hv : v.rules.length = u.rules.length ∧ ∃ r1, v.rules[i]? = some r1 := by
      split at g1
      · obtain ⟨r', h1, -, -, h4, -⟩ := setRuleType_ok g1 hr0
        exact ⟨h4, r', h1⟩
      · obtain ⟨-, rfl⟩ := Prod.mk.inj g1
        exact ⟨rfl, r0, hr0⟩
    obtain ⟨hv, r1, hr1⟩ := hv
    split at h
    · obtain ⟨r', -, -, -, h4, -⟩ := setRuleSize_ok h hr1
      omega
    · obtain ⟨-, rfl⟩ := Prod.mk.inj h
      omega
  · simp at h

theorem setDirRule_ok {f1 f2 : Bool} {types : List RuleType} {sizes : List Int} {i : Nat} {s t : IGA K V}
    (h : setDirRule f1 f2 types sizes i s = (.ok (), t)) :
    t.axes = s.axes ∧ (∀ j, j ≠ i → t.rules[j]? = s.rules[j]?) ∧
    ∃ r ax ty q r', s.rules[i]? = some r ∧ s.axes[i]? = some ax ∧ types[i]? = some ty ∧ sizes[i]? = some q ∧ t.rules[i]? = some r' ∧
      r'.type = (if f1 then ty else r.type) ∧ r'.nqp = (if f2 then ruleSizeOf q r ax else r.nqp) := by
  unfold setDirRule at h
  split at h
  · next r ax ty q e1 e2 e3 e4 =>
    dsimp only at h
    have hk : i < s.rules.length := (List.getElem?_eq_some_iff.1 e1).1
    cases f1 with
    | false =>
      cases f2 with
      | false =>
        simp only [Bool.false_eq_true, and_self, if_false] at h ⊢
        obtain ⟨-, rfl⟩ := Prod.mk.inj h
        exact ⟨rfl, fun _ _ => rfl, r, ax, ty, q, r, e1, e2, e3, e4, e1, rfl, rfl⟩
      | true =>
        simp only [Bool.false_eq_true, false_and, if_false, if_true] at h ⊢
        obtain ⟨r', h1, h2, h3, h4, h5, h6⟩ := setRuleSize_ok h e1
        exact ⟨h5, h6, r, ax, ty, q, r', e1, e2, e3, e4, h1, h2, h3⟩
    | true =>
      cases f2 with
      | false =>
        simp only [Bool.false_eq_true, and_false, if_false, if_true] at h ⊢
        obtain ⟨u, g1, g2⟩ := andThen_eq (by rw [h])
        rw [g2] at h
        obtain ⟨-, rfl⟩ := Prod.mk.inj h
        obtain ⟨r', h1, h2, h3, h4, h5, h6⟩ := setRuleType_ok g1 e1
        exact ⟨h5, h6, r, ax, ty, q, r', e1, e2, e3, e4, h1, h2, h3⟩
      | true =>
        simp only [and_self, if_true] at h ⊢
        obtain ⟨u, g1, g2⟩ := andThen_eq (by rw [h])
        rw [g2] at h
        obtain ⟨r', h1, h2, h3, h4, h5, h6⟩ := setRuleType_ok (r := Rule.reset r) g1 (by simp [hk])
        obtain ⟨r'', k1, k2, k3, k4, k5, k6⟩ := setRuleSize_ok h h1
        refine ⟨k5.trans h5, fun j hj => ?_, r, ax, ty, q, r'', e1, e2, e3, e4, k1, k2.trans h2, k3⟩
        rw [k6 j hj, h6 j hj]
        simp [List.getElem?_set_ne (Ne.symm hj)]
  · simp at h

/-- The rule size `-iga_rule_size` asks for; without a positive value the size the rule has, or the degree plus one. -/
def sizeFor (o : Options K V) (r : Rule K) (ax : Axis K) (i : Nat) : Int :=
  let own := if r.nqp > 0 then r.nqp else ax.p + 1
  let base := match o.ruleSize with
    | some l => if valueOr l i own > 0 then valueOr l i own else own
    | none => r.nqp
  match o.quadrature with
  | some l => if (valueFor l i).getD 0 > 0 then (valueFor l i).getD 0 else base
  | none => base

theorem dirs_le {s : IGA K V} (h : s.dim ≤ 3) : dirs s ≤ 3 := by
  unfold dirs
  split <;> omega

theorem pick_given {α : Type} (o : Option (List α)) {n i : Nat} (hi : i < n) :
    pick (given o n).length (given o n) i = valueFor (o.getD []) i := by
  unfold pick valueFor given
  simp only [List.length_take]
  generalize o.getD [] = l
  by_cases h : i < l.length
  · rw [if_pos (by omega), if_pos h, List.getElem?_take_of_lt hi]
  · rw [if_neg (by omega), if_neg h, List.getElem?_take_of_lt (by omega)]

theorem valueOr_nil {α : Type} (i : Nat) (own : α) : valueOr [] i own = own := by simp [valueOr]

theorem getElem?_of_lt {α : Type} {l : List α} {i : Nat} (h : i < l.length) : ∃ a, l[i]? = some a :=
  ⟨_, List.getElem?_eq_getElem h⟩

theorem set_rules_eq {s t : IGA K V} {o : Options K V} {s0 : IGA K V} (h : setRules o s0 s = (.ok (), t)) (hle : dirs s ≤ 3)
    (hs0 : s0.rules = s.rules) (hru : s.rules.length = 3) :
    t.rules.length = 3 ∧ ∀ (i : Nat) r ax, i < dirs s → s.rules[i]? = some r → s.axes[i]? = some ax → ∃ r', t.rules[i]? = some r' ∧
      r'.type = valueOr (o.ruleType.getD []) i r.type ∧ r'.nqp = (match o.ruleSize with
        | some l => if valueOr l i (if r.nqp > 0 then r.nqp else ax.p + 1) > 0 then
            valueOr l i (if r.nqp > 0 then r.nqp else ax.p + 1) else (if r.nqp > 0 then r.nqp else ax.p + 1)
        | none => r.nqp) := by
  unfold setRules at h
  split_ifs at h with hf
  · have key := forDirs_each (fun s j => s.rules[j]?) (fun u => u.axes = s.axes ∧ u.rules.length = 3)
      (fun j old new => ∃ r ax ty q r', old = some r ∧ s.axes[j]? = some ax ∧
        (spread o.ruleType (dirs s) (s0.rules.map fun r => r.type))[j]? = some ty ∧
        (spread o.ruleSize (dirs s) (sizeDefaults s0 s))[j]? = some q ∧ new = some r' ∧
        r'.type = (if o.ruleType.isSome then ty else r.type) ∧ r'.nqp = (if o.ruleSize.isSome then ruleSizeOf q r ax else r.nqp))
      (List.range (dirs s)) (fun j hj u hu hju => by
        obtain ⟨q1, q2, q3⟩ := setDirRule_ok (i := j) (s := u) (Prod.ext hju rfl)
        rw [hu.1] at q1 q3
        refine ⟨⟨q1, ?_⟩, q3, q2⟩
        exact (setDirRule_length (Prod.ext hju rfl)).trans hu.2) List.nodup_range s ⟨rfl, hru⟩ (by rw [h])
    rw [h] at key
    obtain ⟨⟨-, k0⟩, k1, -⟩ := key
    refine ⟨k0, fun i r ax hi hr hax => ?_⟩
    obtain ⟨r0, ax0, ty, q, r', h1, h2, h3, h4, h5, h6, h7⟩ := k1 i (List.mem_range.2 hi)
    rw [hr] at h1
    rw [hax] at h2
    cases h1
    cases h2
    refine ⟨r', h5, ?_, ?_⟩
    · rw [h6]
      cases ho : o.ruleType with
      | none => simp [valueOr_nil]
      | some l =>
        rw [ho] at h3
        rw [spread_some l _ r.type hi (by rw [hs0, List.getElem?_map, hr]; rfl)] at h3
        cases h3
        rfl
    · rw [h7]
      cases ho : o.ruleSize with
      | none => rfl
      | some l =>
        rw [ho] at h4
        rw [spread_some l _ (if r.nqp > 0 then r.nqp else ax.p + 1) hi (by
          unfold sizeDefaults
          rw [hs0, List.getElem?_zipWith, hr, hax])] at h4
        cases h4
        rfl
  · obtain ⟨-, rfl⟩ := Prod.mk.inj h
    refine ⟨hru, fun i r ax hi hr hax => ⟨r, hr, ?_, ?_⟩⟩
    · cases ho : o.ruleType with
      | none => simp [valueOr_nil]
      | some l => exact absurd (Or.inl (by rw [ho]; rfl)) hf
    · cases ho : o.ruleSize with
      | none => rfl
      | some l => exact absurd (Or.inr (by rw [ho]; rfl)) hf

theorem set_sizes_eq {s t : IGA K V} {o : Options K V} (h : setSizes o s = (.ok (), t)) (hle : dirs s ≤ 3) (hru : s.rules.length = 3) :
    ∀ (i : Nat) r, i < dirs s → s.rules[i]? = some r → ∃ r', t.rules[i]? = some r' ∧ r'.type = r.type ∧
      r'.nqp = (match o.quadrature with
        | some l => if (valueFor l i).getD 0 > 0 then (valueFor l i).getD 0 else r.nqp
        | none => r.nqp) := by
  unfold setSizes at h
  have key := forDirs_each (fun s j => s.rules[j]?) (fun u => u.rules.length = 3)
      (fun j old new => ∃ r r', old = some r ∧ new = some r' ∧ r'.type = r.type ∧
        r'.nqp = if (valueFor (o.quadrature.getD []) j).getD 0 > 0 then (valueFor (o.quadrature.getD []) j).getD 0 else r.nqp)
      (f := setDirSize (given o.quadrature (dirs s))) (List.range (dirs s)) (fun j hj u hu hju => by
        have hj := List.mem_range.1 hj
        obtain ⟨r, hr⟩ := getElem?_of_lt (l := u.rules) (i := j) (by omega)
        unfold setDirSize at hju ⊢
        rw [pick_given _ hj] at hju ⊢
        cases hv : valueFor (o.quadrature.getD []) j with
        | none =>
          dsimp only
          exact ⟨hu, ⟨r, r, hr, hr, rfl, rfl⟩, fun _ _ => rfl⟩
        | some q =>
          rw [hv] at hju
          dsimp only at hju ⊢
          split at hju
          · next hq =>
            rw [if_pos hq]
            obtain ⟨r', h1, h2, h3, h4, h5, h6⟩ := setQuadrature_ok hq (s := u) (i := j) (Prod.ext hju rfl) hr
            exact ⟨h4.trans hu, ⟨r, r', hr, h1, h2, by rw [h3]; simp [hq]⟩, h6⟩
          · next hq =>
            rw [if_neg hq]
            exact ⟨hu, ⟨r, r, hr, hr, rfl, by simp [hq]⟩, fun _ _ => rfl⟩) List.nodup_range s hru (by rw [h])
  rw [h] at key
  intro i r hi hr
  obtain ⟨r0, r', h1, h2, h3, h4⟩ := key.2.1 i (List.mem_range.2 hi)
  rw [hr] at h1
  cases h1
  refine ⟨r', h2, h3, ?_⟩
  rw [h4]
  cases o.quadrature with
  | none => simp [valueFor]
  | some l => rfl

theorem given_dirs (W : World K V) (mem : Int → K) (o : Options K V) (s : IGA K V) (hl : o.load = none)
    (hst : s.stage = 0) (hsu : s.setup = false) (hdim : s.dim ≤ 3) (hbt : s.btypes.length = 3) (hru : s.rules.length = 3)
    (hpr : s.procs.length = 3) (hok : (setFromOptions W mem o s).1 = .ok ()) :
    let s' := (setFromOptions W mem o s).2
    (s'.dim = o.dim.getD s.dim ∧ s'.dof = o.dof.getD s.dof ∧ s'.colloc = o.colloc.getD s.colloc ∧
      s'.order = (o.order.map clip).getD s.order) ∧
    (∀ i : Nat, i < 3 → s'.procs[i]? = if i < dirs s' ∧ 0 < ((o.processors.getD [])[i]?).getD 0 then (o.processors.getD [])[i]?
      else s.procs[i]?) ∧
    (∀ (i : Nat) t, i < dirs s' → s.btypes[i]? = some t → s'.btypes[i]? = some (valueOr (o.basisType.getD []) i t)) ∧
    (∀ (i : Nat) r ax', i < dirs s' → s.rules[i]? = some r → s'.axes[i]? = some ax' → ∃ r', s'.rules[i]? = some r' ∧
      r'.type = valueOr (o.ruleType.getD []) i r.type ∧ r'.nqp = sizeFor o r ax' i) := by
  obtain ⟨t0, t1, t2, t3, t4, e0, e1, e2, e3, e4, e5⟩ := trace hok
  rw [hsu] at e5
  rw [if_neg (by omega)] at e0
  have e5 : setFromOptions W mem o s = (.ok (), t4) := e5
  obtain ⟨⟨f1, f2, f3, f4, f5⟩, ⟨g1, g2, g3, g4, g5, g6, g7, g8⟩, f6⟩ := after_fields e1 e2 e3 e4
  obtain ⟨s4, s5, w1, w2, w3, ⟨s3, v1, v2, v3⟩, w4, w5, u1, u2, u3, u4, u5, u6, u7, u8, u9, -⟩ := before_fields hl e0
  have hd3 : t4.dim ≤ 3 := by
    rw [f1]
    rcases u9 with h | h
    · rw [u1, h]; exact hdim
    · exact h.2
  have hdle := dirs_le hd3
  rw [e5]
  dsimp only
  refine ⟨⟨by rw [f1, u1], by rw [f2, u2], by rw [f3, u3], by rw [f6, u4]⟩, fun i hi => ?_, fun i ty hi hty => ?_, fun i r ax' hi hr hax' => ?_⟩
  · rw [f4, u7]
    have hd : dirs t4 = dirs s3 := by unfold dirs; rw [f1, ← v3]
    rw [hd]
    unfold setProcs at v1
    have hlen : (given o.processors (dirs s3)).length ≤ 3 := by
      simp only [given, List.length_take]; omega
    have key := forDirs_each (fun s j => s.procs[j]?) (fun u => u.procs.length = 3)
      (fun j old new => ∃ np, (given o.processors (dirs s3))[j]? = some np ∧ (0 < np → new = some np) ∧ (np ≤ 0 → new = old))
      (f := setProc W (given o.processors (dirs s3))) (List.range (given o.processors (dirs s3)).length)
      (fun j hj3 u hu hj => by
        have := List.mem_range.1 hj3
        obtain ⟨q1, q2, q3⟩ := setProc_ok (i := j) (s := u) (Prod.ext hj rfl) (by omega)
        exact ⟨q1.trans hu, q2, q3⟩) List.nodup_range s3 (by rw [v2]; exact hpr) (by rw [v1])
    rw [v1] at key
    obtain ⟨-, k1, k2⟩ := key
    have hg : ∀ np, (given o.processors (dirs s3))[i]? = some np ↔ i < dirs s3 ∧ (o.processors.getD [])[i]? = some np := by
      intro np
      unfold given
      constructor
      · intro h
        have hlt := (List.getElem?_eq_some_iff.1 h).1
        rw [List.length_take] at hlt
        rw [List.getElem?_take_of_lt (by omega)] at h
        exact ⟨by omega, h⟩
      · rintro ⟨h1, h2⟩
        rw [List.getElem?_take_of_lt h1]
        exact h2
    by_cases hin : i < (given o.processors (dirs s3)).length
    · obtain ⟨np, h1, h2, h3⟩ := k1 i (List.mem_range.2 hin)
      obtain ⟨h4, h5⟩ := (hg np).1 h1
      rw [h5]
      by_cases hpos : 0 < np
      · rw [if_pos ⟨h4, hpos⟩]; exact h2 hpos
      · rw [if_neg (fun h => hpos h.2), ← v2]; exact h3 (by omega)
    · have h1 := k2 i (fun h => hin (List.mem_range.1 h))
      rw [if_neg, ← v2]
      · exact h1
      · rintro ⟨h2, h3⟩
        cases h4 : (o.processors.getD [])[i]? with
        | none => rw [h4] at h3; simp at h3
        | some np => exact hin (List.getElem?_eq_some_iff.1 ((hg np).2 ⟨h2, h4⟩)).1
  · rw [g5]
    have hd : dirs t4 = dirs t1 := by unfold dirs; rw [f1, g1]
    unfold setBases at e2
    cases ho : o.basisType with
    | none =>
      rw [ho] at e2
      simp only [Option.isSome_none, Bool.false_eq_true, if_false] at e2
      obtain ⟨-, rfl⟩ := Prod.mk.inj e2
      rw [g2, u5, hty]
      simp [valueOr_nil]
    | some l =>
      rw [ho] at e2
      simp only [Option.isSome_some, if_true] at e2
      have key := forDirs_each (fun s j => s.btypes[j]?) (fun u => u.btypes.length = 3)
        (fun j _ new => ∃ b, (basisTypes o (dirs t1) s)[j]? = some b ∧ new = some b)
        (List.range (dirs t1)) (fun j hj u hu hju => by
          have hj := List.mem_range.1 hj
          obtain ⟨q1, q2, q3⟩ := setBase_ok (i := j) (s := u) (Prod.ext hju rfl) (by omega)
          exact ⟨q1.trans hu, q2, q3⟩) List.nodup_range t1 (by rw [g2, u5]; exact hbt) (by rw [e2])
      rw [e2] at key
      obtain ⟨b, h1, h2⟩ := key.2.1 i (List.mem_range.2 (by omega))
      unfold basisTypes at h1
      rw [ho, spread_some l _ ty (by omega) hty] at h1
      cases h1
      exact h2
  · have hd2 : dirs t4 = dirs t2 := by unfold dirs; rw [f1, g3]
    have hd3 : dirs t4 = dirs t3 := by unfold dirs; rw [f1, g4]
    obtain ⟨k0, k1⟩ := set_rules_eq e3 (by omega) (by rw [g6, u6]) (by rw [g6, u6]; exact hru)
    obtain ⟨r', h1, h2, h3⟩ := k1 i r ax' (by omega) (by rw [g6, u6]; exact hr) (by rw [g7, ← f5]; exact hax')
    obtain ⟨r'', h4, h5, h6⟩ := set_sizes_eq e4 (by omega) k0 i r' (by omega) h1
    refine ⟨r'', h4, h5.trans h2, ?_⟩
    rw [h6, h3]
    rfl

/-! ### Nothing asked for -/

theorem degreeDefaults_length (axs : List (Axis K)) : ∀ d, (degreeDefaults d axs).length = axs.length := by
  induction axs with
  | nil => intro d; rfl
  | cons ax axs ih => intro d; simp [degreeDefaults, ih]

theorem elementDefaults_length (axs : List (Axis K)) : ∀ d, (elementDefaults d axs).length = axs.length := by
  induction axs with
  | nil => intro d; rfl
  | cons ax axs ih => intro d; simp [elementDefaults, ih]

theorem limitDefaults_length (axs : List (Axis K)) : ∀ d, (limitDefaults d axs).length = 2 * axs.length := by
  induction axs with
  | nil => intro d; rfl
  | cons ax axs ih => intro d; simp [limitDefaults, ih]; omega

theorem overlay_length {α : Type} (o : Option (List α)) (n : Nat) (A : List α) : A.length ≤ (overlay o n A).length := by
  simp only [overlay, List.length_append, List.length_drop]
  omega

theorem pick_isSome {α : Type} (n : Nat) (A : List α) {i : Nat} (h : i < A.length) : ∃ a, pick n A i = some a := by
  unfold pick
  split
  · exact getElem?_of_lt h
  · exact getElem?_of_lt (by omega)

theorem forDirs_id {f : Nat → IGA K V → Res Unit × IGA K V} {s : IGA K V} :
    ∀ (is : List Nat), (∀ i ∈ is, f i s = (.ok (), s)) → forDirs f is s = (.ok (), s)
  | [], _ => rfl
  | i :: is, h => by
    show andThen (f i s) (forDirs f is) = _
    rw [h i List.mem_cons_self]
    exact forDirs_id is fun k hk => h k (List.mem_cons_of_mem _ hk)

/-- **C92, other settings.**  After a successful `IGASetFromOptions` (before `IGASetUp`, no file given) the dimension, the number of
fields, the collocation flag, the derivative order (clipped to 1..4), the processor grid, the basis types and the quadrature
rules are those the options ask for, and what they were where the options say nothing. -/
theorem C92_given (W : World K V) (mem : Int → K) (o : Options K V) (s : IGA K V) (hl : o.load = none)
    (hst : s.stage = 0) (hsu : s.setup = false) (hdim : s.dim ≤ 3) (hbt : s.btypes.length = 3) (hru : s.rules.length = 3)
    (hpr : s.procs.length = 3) (hok : (setFromOptions W mem o s).1 = .ok ()) :
    let s' := (setFromOptions W mem o s).2
    (s'.dim = o.dim.getD s.dim ∧ s'.dof = o.dof.getD s.dof ∧ s'.colloc = o.colloc.getD s.colloc ∧
      s'.order = (o.order.map clip).getD s.order) ∧
    (∀ i : Nat, i < 3 → s'.procs[i]? = if Used s' i ∧ 0 < ((o.processors.getD [])[i]?).getD 0 then (o.processors.getD [])[i]?
      else s.procs[i]?) ∧
    (∀ (i : Nat) t, Used s' i → s.btypes[i]? = some t → s'.btypes[i]? = some (valueOr (o.basisType.getD []) i t)) ∧
    (∀ (i : Nat) r ax', Used s' i → s.rules[i]? = some r → s'.axes[i]? = some ax' → ∃ r', s'.rules[i]? = some r' ∧
      r'.type = valueOr (o.ruleType.getD []) i r.type ∧ r'.nqp = sizeFor o r ax' i) := by
  simp only [used_iff]
  exact given_dirs W mem o s hl hst hsu hdim hbt hru hpr hok

/-- **C92.**  Without options, `IGASetFromOptions` does nothing to an IGA whose axes are set or that has passed a set-up stage.
`-iga_limits` and `-iga_continuity` alone count as nothing: they never change an axis that has a degree and knots. -/
theorem C92_no_options (W : World K V) (mem : Int → K) (ls : Option (List K)) (cs : Option (List Int)) (s : IGA K V)
    (hdim : s.dim ≤ 3) (hax : s.axes.length = 3) (hbt : s.btypes.length = 3)
    (h : s.stage > 0 ∨ ∀ (i : Nat) ax, Used s i → s.axes[i]? = some ax → Configured ax) :
    setFromOptions W mem { limits := ls, continuity := cs } s = (.ok (), s) := by
  have hle := dirs_le hdim
  have hb : (if s.stage > 0 then (.ok (), s) else beforeSetUp W mem { limits := ls, continuity := cs } s) = (.ok (), s) := by
    split
    · rfl
    · next hst =>
      have h := h.resolve_left hst
      have hA : setAxes W mem { limits := ls, continuity := cs } s s = (.ok (), s) := by
        unfold setAxes
        dsimp only
        refine forDirs_id _ fun i hi => ?_
        have hi := List.mem_range.1 hi
        obtain ⟨ax, hax'⟩ := getElem?_of_lt (l := s.axes) (i := i) (by omega)
        have hc : Configured ax := h i ax ((used_iff s i).2 hi) hax'
        unfold setAxis
        obtain ⟨p, hp⟩ := pick_isSome (given (none : Option (List Int)) (dirs s)).length
          (overlay none (dirs s) (degreeDefaults 2 s.axes)) (i := i)
          (lt_of_lt_of_le (by rw [degreeDefaults_length]; omega) (overlay_length _ _ _))
        obtain ⟨N, hN⟩ := pick_isSome (given (none : Option (List Int)) (dirs s)).length
          (overlay none (dirs s) (elementDefaults 16 s.axes)) (i := i)
          (lt_of_lt_of_le (by rw [elementDefaults_length]; omega) (overlay_length _ _ _))
        obtain ⟨C, hC⟩ := pick_isSome (given cs (dirs s)).length
          (overlay cs (dirs s) (contDefaults { limits := ls, continuity := cs } (dirs s) s)) (i := i)
          (lt_of_lt_of_le (by simp [contDefaults, basisTypes, spread, overlay, given]; omega) (overlay_length _ _ _))
        have hu := overlay_length ls (2 * dirs s) (limitDefaults (0,1) s.axes)
        rw [limitDefaults_length] at hu
        have hj : (if i < (given ls (2 * dirs s)).length / 2 then i else 0) < 3 := by split <;> omega
        generalize (if i < (given ls (2 * dirs s)).length / 2 then i else 0) = j at hj ⊢
        obtain ⟨a, ha⟩ := getElem?_of_lt (l := overlay ls (2 * dirs s) (limitDefaults (0,1) s.axes)) (i := 2 * j) (by omega)
        obtain ⟨b, hb⟩ := getElem?_of_lt (l := overlay ls (2 * dirs s) (limitDefaults (0,1) s.axes)) (i := 2 * j + 1) (by omega)
        rw [hax', hp, hN, hC, ha, hb]
        dsimp only
        rw [if_neg]
        rintro (h1 | h1 | h1)
        · simp at h1
        · exact hc.1 h1
        · exact hc.2 h1
      unfold beforeSetUp
      simp only [whenSome, andThen, reject, setProcs, setWraps, given_none, List.length_nil, List.range_zero, forDirs]
      simpa using hA
  have hS : setSizes ({ limits := ls, continuity := cs } : Options K V) s = (.ok (), s) := by
    unfold setSizes
    refine forDirs_id _ fun i _ => ?_
    simp [setDirSize, given_none, pick]
  unfold setFromOptions
  rw [hb]
  simp only [andThen, whenSome, setBases, setRules, hS]
  simp only [Option.isSome_none, Bool.false_eq_true, if_false, or_self]
  rw [hS]
  dsimp only
  split
  · next h => simp [SetUp.setUp, h]
  · rfl

/-- **C92.**  Once a set-up stage has been passed, only the derivative order, the basis types and the rules can still be set. -/
theorem C92_after_stage (W : World K V) (mem : Int → K) (o : Options K V) (s : IGA K V) (hst : 0 < s.stage) :
    setFromOptions W mem o s = setFromOptions W mem
      { order := o.order, basisType := o.basisType, ruleType := o.ruleType, ruleSize := o.ruleSize, quadrature := o.quadrature } s := by
  unfold setFromOptions
  rw [if_pos hst, if_pos hst]
  rfl

/-- **C92.**  An IGA that was set up when `IGASetFromOptions` is called is set up again afterwards. -/
theorem C92_set_up_again (W : World K V) (mem : Int → K) (o : Options K V) (s : IGA K V) (hs : s.setup = true)
    (hok : (setFromOptions W mem o s).1 = .ok ()) : (setFromOptions W mem o s).2.setup = true := by
  obtain ⟨t0, t1, t2, t3, t4, -, -, -, -, -, e5⟩ := trace hok
  rw [hs, if_pos rfl] at e5
  rw [e5] at hok ⊢
  by_cases h : t4.setup = true
  · simp [SetUp.setUp, h]
  · have h : t4.setup = false := by simpa using h
    by_cases hd : t4.dim < 1
    · simp [SetUp.setUp, h, hd] at hok
    · exact setUp_setup W t4 h hd

/-- **C92.**  Quadrature options are refused for collocation. -/
theorem C92_rejects_rules (W : World K V) (mem : Int → K) (o : Options K V) (s : IGA K V) (hst : s.stage = 0) (hl : o.load = none)
    (hc : o.colloc.getD s.colloc = true) (hr : o.ruleType.isSome ∨ o.ruleSize.isSome ∨ o.quadrature.isSome) :
    (setFromOptions W mem o s).1 ≠ .ok () := by
  intro hok
  obtain ⟨t0, t1, t2, t3, t4, e0, -⟩ := trace hok
  rw [if_neg (by omega)] at e0
  obtain ⟨-, -, -, -, -, -, -, -, -, -, u3, -, -, -, -, -, -, u10⟩ := before_fields hl e0
  rw [u3, hc] at u10
  rcases hr with h | h | h <;> simp [h] at u10

/-- **C92.**  Options for the axes are refused when a file is given. -/
theorem C92_rejects_axes (W : World K V) (mem : Int → K) (o : Options K V) (s : IGA K V) (hst : s.stage = 0)
    (hl : o.load.isSome) (hr : o.elements.isSome ∨ o.degree.isSome ∨ o.continuity.isSome ∨ o.limits.isSome) :
    (setFromOptions W mem o s).1 ≠ .ok () := by
  intro hok
  obtain ⟨t0, t1, t2, t3, t4, e0, -⟩ := trace hok
  rw [if_neg (by omega)] at e0
  have h0 : (beforeSetUp W mem o s).1 = .ok () := by rw [e0]
  unfold beforeSetUp at h0
  obtain ⟨s1, -, h1⟩ := andThen_eq h0
  rw [h1] at h0
  obtain ⟨s2, -, h2⟩ := andThen_eq h0
  rw [h2] at h0
  obtain ⟨s3, -, h3⟩ := andThen_eq h0
  rw [h3] at h0
  obtain ⟨s3', -, h3'⟩ := andThen_eq h0
  rw [h3'] at h0
  obtain ⟨s4, -, h4⟩ := andThen_eq h0
  rw [h4] at h0
  obtain ⟨s5, -, h5⟩ := andThen_eq h0
  rw [h5] at h0
  obtain ⟨read, hrd⟩ := Option.isSome_iff_exists.1 hl
  rw [hrd] at h0
  dsimp only at h0
  obtain ⟨s6, h6, -⟩ := andThen_eq h0
  unfold reject at h6
  rw [if_pos (by rcases hr with h | h | h | h <;> simp [h])] at h6
  simp at h6

/-! ### What the options do not say -/

/-- **C92, what is not asked for (partial).**  `-iga_degree` alone keeps the number of elements and the interval of a direction that has
those of direction 0.  Missing: directions that differ from direction 0 (`C92_keep_refuted`). -/
theorem C92_keep_partial (W : World K V) (mem : Int → K) (o : Options K V) (s : IGA K V) (hp : Proper o) (hl : o.load = none)
    (hst : s.stage = 0) (hsu : s.setup = false) (ax0 ax1 ax2 : Axis K) (haxs : s.axes = [ax0, ax1, ax2])
    (bt0 bt1 bt2 : BasisType) (hbt : s.btypes = [bt0, bt1, bt2])
    (hok : (setFromOptions W mem o s).1 = .ok ()) (i : Nat) (hi : Used (setFromOptions W mem o s).2 i) (ax : Axis K)
    (hax : s.axes[i]? = some ax) (he : o.elements = none) (hli : o.limits = none) (hd : o.degree.isSome)
    (hm : 1 < ax0.m ∧ 1 ≤ ax0.nel)
    (hsame : ax.nel = ax0.nel ∧ ax.U ax.p = ax0.U ax0.p ∧ ax.U (ax.m - ax.p) = ax0.U (ax0.m - ax0.p)) :
    ∃ ax', (setFromOptions W mem o s).2.axes[i]? = some ax' ∧ ax'.p = degreeFor o ax0 ax i ∧ ax'.nel = ax.nel ∧
      ax'.U ax'.p = ax.U ax.p ∧ ax'.U (ax'.m - ax'.p) = ax.U (ax.m - ax.p) := by
  obtain ⟨ax', h1, h2, -⟩ := C92_axes W mem o s hp hl hst hsu ax0 ax1 ax2 haxs bt0 bt1 bt2 hbt hok i hi ax hax
  have g := h2 (Or.inr (Or.inl hd))
  have eN : elementsFor o ax0 ax i = ax0.nel := by
    unfold elementsFor
    rw [he]
    dsimp only
    rw [if_pos hm.1, if_neg (by omega)]
  have eL : limitsFor o ax0 i = (ax0.U ax0.p, ax0.U (ax0.m - ax0.p)) := by
    unfold limitsFor
    rw [hli]
    dsimp only
    rw [if_pos hm.1]
  rw [eN, eL] at g
  have hNpos : ((ax0.nel : Int) : K) ≠ 0 := by
    have : (0:K) < ((ax0.nel : Int) : K) := by exact_mod_cast (by omega : 0 < ax0.nel)
    exact this.ne'
  have hpk : ax'.p = degreeFor o ax0 ax i := g.kept.1
  refine ⟨ax', h1, hpk, by rw [g.nel.1, hsame.1], ?_, ?_⟩
  · have := g.dom.1
    dsimp only at this
    rw [hpk, this, hsame.2.1]
    simp
  · have := g.dom.2
    dsimp only at this
    rw [hpk, this, hsame.2.2, div_self hNpos]
    ring

/-- A two-dimensional IGA with 4 and 8 elements of degree 2. -/
def exTwo : IGA Rat Unit := run (exWorld 1) (create (exWorld 1)) [.setDim 2, .axis 0 (exAxisCall 4), .axis 1 (exAxisCall 8)]

/-- **C92, refuted for what is not asked for.**  `-iga_degree 3` succeeds on an IGA with 4 and 8 elements and leaves 4 elements in both
directions: the number of elements of the second direction, read into the array of defaults, is not used. -/
theorem C92_keep_refuted : ∃ (W : World Rat Unit) (mem : Int → Rat) (s : IGA Rat Unit),
    s.axes.map (fun ax => (ax.p, ax.nel)) = [(2, 4), (2, 8), (0, 1)] ∧
    (setFromOptions W mem { degree := some [3] } s).1 = .ok () ∧
    (setFromOptions W mem { degree := some [3] } s).2.axes.map (fun ax => (ax.p, ax.nel)) = [(3, 4), (3, 4), (0, 1)] :=
  ⟨exWorld 1, fun _ => 0, exTwo, by decide +kernel, isOk_iff.1 (by decide +kernel), by decide +kernel⟩

/-- The options `-iga_dim 2 -iga_elements 2 -iga_basis_type …`. -/
def exBasis (ts : List BasisType) : Options Rat Unit := { dim := some 2, elements := some [2], basisType := some ts }

/-- A new IGA, configured from options. -/
def exFresh (o : Options Rat Unit) : Res Unit × IGA Rat Unit := setFromOptions (exWorld 1) (fun _ => 0) o (create (exWorld 1))

/-- **C92, refuted for mixed basis types.**  `-iga_basis_type bspline,lagrange` is accepted, but gives the second direction the smooth
knots of the first, with which `IGASetUp` refuses a Lagrange basis; `lagrange` and `lagrange,bspline` work. -/
theorem C92_basis_refuted :
    (exFresh (exBasis [.bspline, .lagrange])).1 = .ok () ∧
    (setUp (exWorld 1) (exFresh (exBasis [.bspline, .lagrange])).2).1 ≠ .ok () ∧
    (setUp (exWorld 1) (exFresh (exBasis [.lagrange])).2).1 = .ok () ∧
    (setUp (exWorld 1) (exFresh (exBasis [.lagrange, .bspline])).2).1 = .ok () :=
  ⟨isOk_iff.1 (by decide +kernel),
    fun h => absurd (isOk_iff.2 h) (by decide +kernel),
    isOk_iff.1 (by decide +kernel), isOk_iff.1 (by decide +kernel)⟩

/-- Many options on a new IGA. -/
def exOpts : Options Rat Unit :=
  { dim := some 2, dof := some 3, processors := some [2, 2], periodic := some [true, false], degree := some [3, 2],
    elements := some [4], limits := some [0, 2, 1, 5], continuity := some [-1, 0], order := some 7,
    basisType := some [.bspline], ruleType := some [.lobatto, .legendre], ruleSize := some [4, 3], quadrature := some [5, 0] }

/-- `C92_axes`, `C92_given`: the options `exOpts` on a new IGA meet the hypotheses, and this is what they give. -/
example : Proper exOpts ∧ exOpts.load = none ∧ (create (exWorld 4)).stage = 0 ∧ (create (exWorld 4)).setup = false ∧
    (setFromOptions (exWorld 4) (fun _ => 0) exOpts (create (exWorld 4))).1 = .ok () ∧
    (setFromOptions (exWorld 4) (fun _ => 0) exOpts (create (exWorld 4))).2.axes.map
      (fun ax => (ax.periodic, ax.p, ax.nel, ax.nnp, ax.U ax.p, ax.U (ax.m - ax.p))) =
      [(true, 3, 4, 4, 0, 2), (false, 2, 4, 9, 1, 5), (false, 0, 1, 1, -1/2, 1/2)] ∧
    (setFromOptions (exWorld 4) (fun _ => 0) exOpts (create (exWorld 4))).2.rules.map (fun r => (r.type, r.nqp)) =
      [(.lobatto, 5), (.legendre, 3), (.legendre, 0)] ∧
    (setFromOptions (exWorld 4) (fun _ => 0) exOpts (create (exWorld 4))).2.procs = [2, 2, -1] ∧
    (setFromOptions (exWorld 4) (fun _ => 0) exOpts (create (exWorld 4))).2.order = 4 := by
  refine ⟨⟨by simp [exOpts], by simp [exOpts], by simp [exOpts], fun l h => ?_⟩, rfl, rfl, rfl,
    isOk_iff.1 (by decide +kernel), by decide +kernel, by decide +kernel, by decide +kernel, by decide +kernel⟩
  simp only [exOpts, Option.some.injEq] at h
  rw [← h]; simp

/-- `C92_keep_partial`: direction 0 of `exTwo` under `-iga_degree 3`. -/
example : exTwo.stage = 0 ∧ exTwo.setup = false ∧ exTwo.axes.length = 3 ∧ exTwo.btypes.length = 3 ∧
    (setFromOptions (exWorld 1) (fun _ => 0) { degree := some [3] } exTwo).1 = .ok () ∧
    1 < dirs (setFromOptions (exWorld 1) (fun _ => 0) { degree := some [3] } exTwo).2 ∧
    exTwo.axes.map (fun ax => (ax.m, ax.nel)) = [(8, 4), (12, 8), (1, 1)] :=
  ⟨by decide +kernel, by decide +kernel, by decide +kernel, by decide +kernel, isOk_iff.1 (by decide +kernel), by decide +kernel,
    by decide +kernel⟩

/-- `C92_no_options`, `C92_after_stage`, `C92_set_up_again`: `exTwo`, before and after its set-up. -/
example : (∀ ax ∈ exTwo.axes.take (dirs exTwo), Configured ax) ∧ exTwo.dim = 2 ∧ exTwo.stage = 0 ∧
    0 < (setUp (exWorld 1) exTwo).2.stage ∧ (setUp (exWorld 1) exTwo).2.setup = true ∧
    (setFromOptions (exWorld 1) (fun _ => 0) { ruleSize := some [5], dim := some 1 } (setUp (exWorld 1) exTwo).2).1 = .ok () := by
  refine ⟨?_, by decide +kernel, by decide +kernel, by decide +kernel, by decide +kernel, isOk_iff.1 (by decide +kernel)⟩
  have h : (exTwo.axes.take (dirs exTwo)).all (fun ax => decide (ax.p ≠ 0) && decide (ax.m ≠ 1)) = true := by decide +kernel
  intro ax hax
  have := List.all_eq_true.1 h ax hax
  simp only [Bool.and_eq_true, decide_eq_true_eq] at this
  exact this

/-- `C92_rejects_rules`, `C92_rejects_axes`: without the offending option the calls succeed. -/
example : (exFresh { dim := some 1, colloc := some true }).1 = .ok () ∧
    (exFresh { dim := some 1, load := some fun s => (.ok (), s) }).1 = .ok () :=
  ⟨isOk_iff.1 (by decide +kernel), isOk_iff.1 (by decide +kernel)⟩

end PetIGA.Opt
