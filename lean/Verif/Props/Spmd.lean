import Verif.Model.Spmd
import Verif.Props.SetUpSucceeds
import Verif.Props.SetUp

/-!
C115: the processes agree on the outcome of every configuration call.
-/

set_option linter.unusedSectionVars false

namespace PetIGA.SetUp
open PetIGA.Ax PetIGA.Lay PetIGA.Rule PetIGA.Quad PetIGA.Part

variable {K V : Type} [Field K] [LinearOrder K] [IsStrictOrderedRing K]

/-! ### Specification -/

/-- Two processes hold the same discretisation: all sizes, axes, rules, tables and the processor grid are equal, and both
or neither have a local box, a numbering and an initialised iterator.  Only the position in the processor grid, the local
box and the local arrays of the geometry may differ. -/
structure Agree (s t : IGA K V) : Prop where
  colloc : s.colloc = t.colloc
  dim : s.dim = t.dim
  dof : s.dof = t.dof
  order : s.order = t.order
  setup : s.setup = t.setup
  stage : s.stage = t.stage
  axes : s.axes = t.axes
  rules : s.rules = t.rules
  btypes : s.btypes = t.btypes
  bases : s.bases = t.bases
  procs : s.procs = t.procs
  layout : s.layout.map (fun L => (L.axes, L.procs)) = t.layout.map (fun L => (L.axes, L.procs))
  grid : s.grid.map (fun g => (g.1, g.2.axes, g.2.procs)) = t.grid.map (fun g => (g.1, g.2.axes, g.2.procs))
  iter : s.iter = t.iter

/-- The calls on axes are calls of the axis interface: a successful one leaves an axis that calls of the interface can
produce. -/
def AxisCalls (cs : List (Call K V)) : Prop :=
  ∀ i f, Call.op (.axis i f) ∈ cs → ∀ ax, Reached ax → (f ax).1 = .ok () → Reached (f ax).2

/-- Geometry arrays are allocated for the local box, and are given by `geo` calls only. -/
def LocalArrays (cs : List (Call K V)) : Prop :=
  (∀ g fx, Call.op (.setGeo g fx) ∉ cs) ∧ ∀ f, Call.geo f ∈ cs → ∀ L, GeoFits L (f L).1

/-! ### The local parts removed -/

/-- A layout without what differs between processes. -/
def bareL (L : Layout K) : Layout K := { axes := L.axes, procs := L.procs, ranks := [], dir := [] }

/-- An object without what differs between processes. -/
def bare (s : IGA K V) : IGA K V :=
  { s with layout := s.layout.map bareL, geo := Geo.none, fixtable := none, grid := s.grid.map fun g => (g.1, bareL g.2) }

theorem map_bareL (l : Option (Layout K)) :
    l.map bareL = (l.map fun L => (L.axes, L.procs)).map fun p => ⟨p.1, p.2, [], []⟩ := by
  cases l <;> rfl

theorem map_bareG (g : Option (Int × Layout K)) : g.map (fun g => (g.1, bareL g.2)) =
    (g.map fun g => (g.1, g.2.axes, g.2.procs)).map fun p => (p.1, ⟨p.2.1, p.2.2, [], []⟩) := by
  cases g <;> rfl

theorem bare_eq {s t : IGA K V} (h : Agree s t) : bare s = bare t := by
  obtain ⟨h1, h2, h3, h4, h5, h6, h7, h8, h9, h10, h11, h12, h13, h14⟩ := h
  unfold bare
  rw [map_bareL, map_bareG, h12, h13, ← map_bareL, ← map_bareG, h1, h2, h3, h4, h5, h6, h7, h8, h9, h10, h11, h14]

theorem agree_of {s t : IGA K V} (h : bare s = bare t) : Agree s t := by
  have e : ∀ {α : Type} (f : IGA K V → α), f (bare s) = f (bare t) := fun f => by rw [h]
  have hl := e (fun s => s.layout.map fun L => (L.axes, L.procs))
  have hg := e (fun s => s.grid.map fun g => (g.1, g.2.axes, g.2.procs))
  simp only [bare, Option.map_map] at hl hg
  exact ⟨e (·.colloc), e (·.dim), e (·.dof), e (·.order), e (·.setup), e (·.stage), e (·.axes), e (·.rules), e (·.btypes),
    e (·.bases), e (·.procs), hl, hg, e (·.iter)⟩

/-! ### Calls that do not look at the local parts -/

/-- The call gives the same outcome without the local parts, and changes nothing else. -/
def Blind (f : IGA K V → Res Unit × IGA K V) : Prop := ∀ s, f (bare s) = ((f s).1, bare (f s).2)

theorem Blind.same {f : IGA K V → Res Unit × IGA K V} (hf : Blind f) {s t : IGA K V} (h : bare s = bare t) :
    (f s).1 = (f t).1 ∧ bare (f s).2 = bare (f t).2 := by
  have a := hf s
  rw [h, hf t] at a
  simp only [Prod.mk.injEq] at a
  exact ⟨a.1.symm, a.2.symm⟩

theorem blind_andThen {f g : IGA K V → Res Unit × IGA K V} (hf : Blind f) (hg : Blind g) : Blind fun s => andThen (f s) g := by
  intro s
  dsimp only
  rw [hf s]
  obtain ⟨r, s'⟩ := f s
  cases r <;> simp only [andThen]
  exact hg s'

theorem blind_ite {c : IGA K V → Prop} [DecidablePred c] {f g : IGA K V → Res Unit × IGA K V} (hc : ∀ s, c (bare s) ↔ c s)
    (hf : Blind f) (hg : Blind g) : Blind fun s => if c s then f s else g s := by
  intro s
  dsimp only
  by_cases h : c s
  · rw [if_pos h, if_pos ((hc s).2 h)]; exact hf s
  · rw [if_neg h, if_neg (fun h' => h ((hc s).1 h'))]; exact hg s

theorem blind_rfl (r : Res Unit) : Blind fun s : IGA K V => (r, s) := fun _ => rfl

theorem blind_setDim (d : Int) : Blind (fun s : IGA K V => setDim s d) := by
  exact blind_ite (fun _ => Iff.rfl) (blind_rfl _) (blind_ite (fun _ => Iff.rfl) (blind_rfl _) (fun _ => rfl))

theorem blind_setDof (d : Int) : Blind (fun s : IGA K V => setDof s d) := by
  exact blind_ite (fun _ => Iff.rfl) (blind_rfl _) (blind_ite (fun _ => Iff.rfl) (blind_rfl _) (fun _ => rfl))

theorem blind_setOrder (d : Int) : Blind (fun s : IGA K V => setOrder s d) := by
  exact blind_ite (fun _ => Iff.rfl) (blind_rfl _) (fun _ => rfl)

theorem checkDir_bare (s : IGA K V) (i : Int) : checkDir (bare s) i = checkDir s i := rfl

theorem blind_setBasisType (i : Int) (t : BasisType) : Blind (fun s : IGA K V => setBasisType s i t) := by
  refine blind_ite (fun _ => Iff.rfl) (blind_rfl _) (fun s => ?_)
  rw [checkDir_bare]
  rcases checkDir s i with k | e | _
  · exact blind_ite (c := fun s : IGA K V => s.btypes[k]? = some t) (g := fun s => (.ok (), { s with
      btypes := s.btypes.set k t, bases := s.bases.set k none, setup := false })) (fun _ => Iff.rfl) (blind_rfl _) (fun _ => rfl) s
  · rfl
  · rfl

theorem blind_ruleCall (k : Nat) (r : Res Unit × Rule K) : Blind (fun s : IGA K V => ruleCall s k r) := by
  intro s
  obtain ⟨r, r'⟩ := r
  cases r <;> rfl

theorem blind_setRuleType (i : Int) (t : RuleType) : Blind (fun s : IGA K V => setRuleType s i t) := by
  intro s
  simp only [setRuleType, checkDir_bare]
  rcases checkDir s i with k | e | _ <;> simp only
  have hr : (bare s).rules[k]? = s.rules[k]? := rfl
  rw [hr]
  rcases s.rules[k]? with _ | r <;> simp only
  split_ifs
  · rfl
  · exact blind_ruleCall k _ s

theorem blind_setRuleSize (i q : Int) : Blind (fun s : IGA K V => setRuleSize s i q) := by
  intro s
  simp only [setRuleSize, checkDir_bare]
  rcases checkDir s i with k | e | _ <;> simp only
  have hr : (bare s).rules[k]? = s.rules[k]? := rfl
  rw [hr]
  rcases s.rules[k]? with _ | r <;> simp only
  split_ifs
  · rfl
  · exact blind_ruleCall k _ s

theorem blind_setQuadrature (i q : Int) : Blind (fun s : IGA K V => setQuadrature s i q) := by
  intro s
  simp only [setQuadrature, checkDir_bare]
  rcases checkDir s i with k | e | _ <;> simp only
  have hr : (bare s).rules[k]? = s.rules[k]? := rfl
  have ha : (bare s).axes[k]? = s.axes[k]? := rfl
  rw [hr, ha]
  rcases s.rules[k]? with _ | r
  · rfl
  rcases s.axes[k]? with _ | ax
  · rfl
  dsimp only
  split_ifs <;> first | rfl | exact blind_ruleCall k _ s

theorem blind_setProcessors (W : World K V) (i n : Int) : Blind (fun s : IGA K V => setProcessors W s i n) := by
  refine blind_ite (fun _ => Iff.rfl) (blind_rfl _) (fun s => ?_)
  rw [checkDir_bare]
  rcases checkDir s i with k | e | _
  · exact blind_ite (c := fun _ => n < 1) (fun _ => Iff.rfl) (blind_rfl _) (blind_ite (c := fun _ => Int.tmod W.size n ≠ 0) (fun _ => Iff.rfl) (blind_rfl _)
      (blind_ite (c := fun s : IGA K V => Int.tmod W.size (procProd s.procs (if s.dim > 0 then s.dim else 3).toNat k n) ≠ 0)
        (g := fun s => (.ok (), { s with procs := s.procs.set k n })) (fun _ => Iff.rfl) (blind_rfl _) (fun _ => rfl))) s
  · rfl
  · rfl

theorem blind_setCollocation (b : Bool) : Blind (fun s : IGA K V => setCollocation s b) := by
  exact blind_ite (fun _ => Iff.rfl) (blind_rfl _) (fun _ => rfl)

theorem blind_axisCall (i : Int) (f : Axis K → Res Unit × Axis K) : Blind (fun s : IGA K V => axisCall s i f) := by
  intro s
  simp only [axisCall, checkDir_bare]
  rcases checkDir s i with k | e | _ <;> simp only
  have ha : (bare s).axes[k]? = s.axes[k]? := rfl
  rw [ha]
  rcases s.axes[k]? with _ | ax <;> rfl

theorem blind_reset : Blind (reset : IGA K V → _) := by
  intro s; rfl

theorem blind_stage2 : Blind (stage2 : IGA K V → _) := by
  refine blind_ite (fun _ => Iff.rfl) (blind_rfl _) (fun s => ?_)
  simp only [bare, Option.map_map]
  rfl

theorem blind_defaultOrder : Blind (defaultOrder : IGA K V → _) := by
  intro s
  have hs : (bare s).order = s.order := rfl
  unfold defaultOrder
  rw [hs]
  split_ifs
  · exact blind_setOrder _ { s with order := (s.axes.take s.dim.toNat).foldl (fun o ax => max o ax.p) s.order }
  · rfl

theorem blind_initDir (W : World K V) (i : Nat) : Blind (initDir W i) := by
  intro s
  have h1 : (bare s).axes[i]? = s.axes[i]? := rfl
  have h2 : (bare s).rules[i]? = s.rules[i]? := rfl
  have h3 : (bare s).btypes[i]? = s.btypes[i]? := rfl
  have h4 : (bare s).colloc = s.colloc := rfl
  have h5 : (bare s).dim = s.dim := rfl
  unfold initDir
  rw [h1, h2, h3, h4, h5]
  rcases s.axes[i]? with _ | ax <;> rcases s.rules[i]? with _ | r <;> rcases s.btypes[i]? with _ | bt <;> simp only
  split_ifs
  · rcases Quad.initCollocation (W.kern bt ax) bt ax with b | e | _ <;> rfl
  all_goals
    generalize Quad.initQuadrature (W.kern bt ax) W.huge bt ax _ = y
    obtain ⟨r, r', b⟩ := y
    cases r <;> cases b <;> rfl

theorem blind_stage3 (W : World K V) : Blind (stage3 W) := by
  have h0 : Blind (fun s : IGA K V => defaultOrder { s with stage := 3 }) := fun s => blind_defaultOrder { s with stage := 3 }
  exact blind_andThen h0 (blind_andThen (blind_initDir W 0) (blind_andThen (blind_initDir W 1) (blind_andThen (blind_initDir W 2)
    (fun s => rfl))))

/-! ### The layout -/

/-- The parts of a layout all processes share. -/
def shared : Res (Layout K) → Res (Layout K)
  | .ok L => .ok (bareL L)
  | .err e => .err e
  | .ub => .ub

theorem stage1_shared (g2 : Guess2) (g3 : Guess3) (colloc : Bool) (size : Int) (procs : List Int) (axes : List (Axis K))
    (hr : ∀ ax ∈ axes, Reached ax) (r r' : Int) (h0 : 0 ≤ r) (h1 : r < size) (h0' : 0 ≤ r') (h1' : r' < size) :
    shared (Lay.stage1 g2 g3 colloc size r procs axes) = shared (Lay.stage1 g2 g3 colloc size r' procs axes) := by
  cases ha : setUpAxes axes with
  | err e => simp only [Lay.stage1, ha, Res.err_bind]
  | ub => simp only [Lay.stage1, ha, Res.ub_bind]
  | ok axs =>
    obtain ⟨N, hN⟩ : ∃ N, N = axs.map (gridSize colloc) := ⟨_, rfl⟩
    have split : (∃ n', ∀ q, 0 ≤ q → q < size → partition g2 g3 size q N procs = .ok (n', coords n' q)) ∨
        (∃ x : Res (List Int × List Int), (∀ y, x ≠ .ok y) ∧ ∀ q, 0 ≤ q → q < size → partition g2 g3 size q N procs = x) := by
      by_cases hx : ∃ y, partition g2 g3 size r N procs = .ok y
      · obtain ⟨⟨n', i⟩, hy⟩ := hx
        exact .inl ⟨n', (partition_ok hy).2.2.2.2.2.2.2⟩
      · refine .inr ⟨partition g2 g3 size r N procs, fun y hy => hx ⟨y, hy⟩, fun q hq0 hq1 => ?_⟩
        have hx' : ¬ ∃ y, partition g2 g3 size q N procs = .ok y := by
          rintro ⟨⟨n', i⟩, hy⟩
          exact hx ⟨_, (partition_ok hy).2.2.2.2.2.2.2 r h0 h1⟩
        unfold partition check at hx hx' ⊢
        rw [if_pos (by omega : ¬ size < 1), Res.ok_bind, if_pos (by omega), Res.ok_bind] at hx hx' ⊢
        rw [if_pos (by omega : ¬ (r < 0 ∨ r ≥ size)), Res.ok_bind]
        cases hc : chooseGrid g2 g3 size N procs with
        | err e => rfl
        | ub => rfl
        | ok n' =>
          rw [hc] at hx
          simp only [Res.ok_bind] at hx ⊢
          split_ifs at hx ⊢ <;> simp_all
    rcases split with ⟨n', hn⟩ | ⟨x, hx, hq⟩
    · have key : ∀ q, 0 ≤ q → q < size → ∃ L, Lay.stage1 g2 g3 colloc size q procs axes = .ok L ∧ L.axes = axs ∧ L.procs = n' := by
        intro q hq0 hq1
        obtain ⟨-, -, -, c1, c2, -, c3, -⟩ := partition_ok (hn q hq0 hq1)
        have hl : 1 ≤ axes.length ∧ axes.length ≤ 3 := by
          have e := setUpAxes_length ha
          have := hn q hq0 hq1
          unfold partition at this
          simp only [Res.bind_eq_ok] at this
          obtain ⟨-, -, -, -, m, hm, -⟩ := this
          have e2 : N.length = axs.length := by rw [hN, List.length_map]
          rw [← e, ← e2]
          clear hN hn c3
          unfold chooseGrid at hm
          split at hm
          · simp
          · simp
          · simp
          · simp at hm
        obtain ⟨L, hL⟩ := Asm.C20_setup_succeeds g2 g3 colloc size n' axes axs hr hl ha (hN ▸ c3) c1 q hq0 hq1
        have he : Lay.stage1 g2 g3 colloc size q procs axes = Lay.stage1 g2 g3 colloc size q n' axes := by
          have h' := Asm.C01_user_grid_accepted g2 g3 size q N n' ?_ c3 c1 hq0 hq1
          · simp only [Lay.stage1, ha, Res.ok_bind, ← hN, hn q hq0 hq1, h']
          · have e := setUpAxes_length ha
            have e2 : N.length = axs.length := by rw [hN, List.length_map]
            have e3 := c3.length_eq
            omega
        refine ⟨L, he.trans hL, ?_⟩
        have h' := Asm.C01_user_grid_accepted g2 g3 size q N n' ?_ c3 c1 hq0 hq1
        · simp only [Lay.stage1, ha, Res.ok_bind, ← hN, h', Res.bind_eq_ok] at hL
          obtain ⟨_, -, _, -, hL⟩ := hL
          simp only [Res.ok.injEq] at hL
          subst hL
          exact ⟨rfl, rfl⟩
        · have e := setUpAxes_length ha
          have e2 : N.length = axs.length := by rw [hN, List.length_map]
          have e3 := c3.length_eq
          omega
      obtain ⟨L, hL, a1, a2⟩ := key r h0 h1
      obtain ⟨L', hL', a1', a2'⟩ := key r' h0' h1'
      rw [hL, hL']
      simp only [shared, bareL, a1, a2, a1', a2']
    · have e : ∀ q, 0 ≤ q → q < size → shared (Lay.stage1 g2 g3 colloc size q procs axes) =
          (match x with | .ok _ => .ub | .err e => .err e | .ub => .ub) := by
        intro q hq0 hq1
        simp only [Lay.stage1, ha, Res.ok_bind, ← hN, hq q hq0 hq1]
        cases x with
        | ok y => exact absurd rfl (hx y)
        | err e => rfl
        | ub => rfl
      rw [e r h0 h1, e r' h0' h1']

theorem stage1_same (W : World K V) (r : Int) (hW : 0 ≤ W.rank ∧ W.rank < W.size) (h0 : 0 ≤ r) (h1 : r < W.size)
    {s t : IGA K V} (hr : ∀ ax ∈ s.axes, Reached ax) (h : bare s = bare t) :
    (stage1 W s).1 = (stage1 { W with rank := r } t).1 ∧ bare (stage1 W s).2 = bare (stage1 { W with rank := r } t).2 := by
  have hA := agree_of h
  unfold stage1
  dsimp only
  rw [← hA.stage, ← hA.dim, ← hA.procs, ← hA.axes, ← hA.colloc]
  split_ifs with hst
  · exact ⟨rfl, h⟩
  have hsh := stage1_shared W.g2 W.g3 s.colloc W.size (s.procs.take s.dim.toNat) (s.axes.take s.dim.toNat)
    (fun ax hax => hr ax (List.mem_of_mem_take hax)) W.rank r hW.1 hW.2 h0 h1
  revert hsh
  cases Lay.stage1 W.g2 W.g3 s.colloc W.size W.rank (s.procs.take s.dim.toNat) (s.axes.take s.dim.toNat) <;>
    cases Lay.stage1 W.g2 W.g3 s.colloc W.size r (s.procs.take s.dim.toNat) (s.axes.take s.dim.toNat) <;>
    intro hsh <;> simp only [shared, Res.ok.injEq, Res.err.injEq, reduceCtorEq] at hsh
  · rename_i L L'
    refine ⟨rfl, ?_⟩
    simp only [bareL, Layout.mk.injEq, and_true] at hsh
    apply bare_eq
    constructor <;> simp only [hA.colloc, hA.dim, hA.dof, hA.order, hA.setup, hA.rules, hA.btypes, hA.bases, hA.iter, hA.grid, hsh,
      Option.map_some]
  · subst hsh
    refine ⟨rfl, ?_⟩
    apply bare_eq
    constructor <;> simp only [hA.colloc, hA.dim, hA.dof, hA.order, hA.setup, hA.rules, hA.btypes, hA.bases, hA.iter, hA.grid, hA.axes,
      hA.procs, hA.layout]
  · refine ⟨rfl, ?_⟩
    apply bare_eq
    constructor <;> simp only [hA.colloc, hA.dim, hA.dof, hA.order, hA.setup, hA.rules, hA.btypes, hA.bases, hA.iter, hA.grid, hA.axes,
      hA.procs, hA.layout]

/-! ### One call -/

/-- All axes are what calls of the axis interface produce. -/
def Ready (s : IGA K V) : Prop := ∀ ax ∈ s.axes, Reached ax

theorem andThen_same {r r' : Res Unit × IGA K V} {f : IGA K V → Res Unit × IGA K V} (hf : Blind f) (h1 : r.1 = r'.1)
    (h2 : bare r.2 = bare r'.2) : (andThen r f).1 = (andThen r' f).1 ∧ bare (andThen r f).2 = bare (andThen r' f).2 := by
  obtain ⟨a, s⟩ := r
  obtain ⟨b, t⟩ := r'
  dsimp only at h1 h2
  subst h1
  cases a with
  | ok u => exact hf.same h2
  | err e => exact ⟨rfl, h2⟩
  | ub => exact ⟨rfl, h2⟩

theorem setUp_same (W : World K V) (r : Int) (hW : 0 ≤ W.rank ∧ W.rank < W.size) (h0 : 0 ≤ r) (h1 : r < W.size)
    {s t : IGA K V} (hr : Ready s) (h : bare s = bare t) :
    (setUp W s).1 = (setUp { W with rank := r } t).1 ∧ bare (setUp W s).2 = bare (setUp { W with rank := r } t).2 := by
  have hA := agree_of h
  have hb : bare { s with setup := true } = bare { t with setup := true } := by
    have e : ∀ u : IGA K V, bare { u with setup := true } = { bare u with setup := true } := fun u => rfl
    rw [e, e, h]
  have e := stage1_same W r hW h0 h1 (s := { s with setup := true }) (t := { t with setup := true }) hr hb
  have b : Blind fun s : IGA K V => andThen (stage2 s) fun s => stage3 W s := blind_andThen blind_stage2 (blind_stage3 W)
  have k := andThen_same b e.1 e.2
  have hs : t.setup = s.setup := hA.setup.symm
  have hd : t.dim = s.dim := hA.dim.symm
  unfold setUp
  by_cases c1 : s.setup = true
  · rw [if_pos c1, if_pos (hs.trans c1)]; exact ⟨rfl, h⟩
  · by_cases c2 : s.dim < 1
    · rw [if_neg c1, if_pos c2, if_neg (show ¬ t.setup = true from hs ▸ c1), if_pos (show t.dim < 1 from hd.symm ▸ c2)]
      exact ⟨rfl, h⟩
    · rw [if_neg c1, if_neg c2, if_neg (show ¬ t.setup = true from hs ▸ c1), if_neg (show ¬ t.dim < 1 from hd.symm ▸ c2)]
      exact k

theorem setUpAxes_reached : ∀ {as as' : List (Axis K)}, (∀ ax ∈ as, Reached ax) → setUpAxes as = .ok as' → ∀ ax ∈ as', Reached ax := by
  intro as
  induction as with
  | nil => intro as' _ h; simp only [setUpAxes, Res.ok.injEq] at h; subst h; simp
  | cons a as ih =>
    intro as' hr h
    have ha := Reached.step a .setUp (hr a (by simp))
    simp only [setUpAxes] at h
    obtain ⟨x, hx⟩ : ∃ x, x = Ax.setUp a := ⟨_, rfl⟩
    rw [← hx] at h
    simp only [Ax.step, ← hx] at ha
    obtain ⟨q, a'⟩ := x
    cases q with
    | err e => simp at h
    | ub => simp at h
    | ok u =>
      simp only [Res.bind_eq_ok] at h
      obtain ⟨as'', h', h''⟩ := h
      simp only [Res.ok.injEq] at h''
      subst h''
      intro ax hax
      rcases List.mem_cons.1 hax with rfl | hax
      · exact ha rfl
      · exact ih (fun x hx => hr x (List.mem_cons_of_mem _ hx)) h' ax hax

theorem ready_stage1 (W : World K V) {s : IGA K V} (hr : Ready s) (h : (stage1 W s).1 = .ok ()) : Ready (stage1 W s).2 := by
  unfold stage1 at h ⊢
  by_cases c : s.stage ≥ 1
  · rw [if_pos c]; exact hr
  rw [if_neg c] at h ⊢
  dsimp only at h ⊢
  cases hL : Lay.stage1 W.g2 W.g3 s.colloc W.size W.rank (s.procs.take s.dim.toNat) (s.axes.take s.dim.toNat) with
  | err e => rw [hL] at h; simp at h
  | ub => rw [hL] at h; simp at h
  | ok L =>
    intro ax hax
    simp only [List.mem_append, List.mem_replicate] at hax
    rcases hax with hax | ⟨-, rfl⟩
    · simp only [Lay.stage1, Res.bind_eq_ok] at hL
      obtain ⟨axs, ha, _, -, _, -, _, -, hL⟩ := hL
      simp only [Res.ok.injEq] at hL
      subst hL
      exact setUpAxes_reached (fun x hx => hr x (List.mem_of_mem_take hx)) ha ax hax
    · exact .create _

theorem ready_setUp (W : World K V) {s : IGA K V} (hr : Ready s) (h : (setUp W s).1 = .ok ()) : Ready (setUp W s).2 := by
  unfold setUp at h ⊢
  by_cases c1 : s.setup = true
  · rw [if_pos c1]; exact hr
  rw [if_neg c1] at h ⊢
  by_cases c2 : s.dim < 1
  · rw [if_pos c2] at h; simp at h
  rw [if_neg c2] at h ⊢
  obtain ⟨k1, k2⟩ := andThen_ok h
  have q := ready_stage1 W (s := { s with setup := true }) hr k1
  rw [k2] at h ⊢
  obtain ⟨k3, k4⟩ := andThen_ok h
  rw [k4] at h ⊢
  have f2 : (stage2 (stage1 W { s with setup := true }).2).2.axes = (stage1 W { s with setup := true }).2.axes := by
    unfold stage2; split_ifs <;> rfl
  have f3 := (stage3_frame W (stage2 (stage1 W { s with setup := true }).2).2).axes
  intro ax hax
  rw [f3, f2] at hax
  exact q ax hax

/-- What one call of a legal program is. -/
def LegalCall : Call K V → Prop
  | .op (.axis _ f) => ∀ ax, Reached ax → (f ax).1 = .ok () → Reached (f ax).2
  | .op (.setGeo _ _) => False
  | .geo f => ∀ L, GeoFits L (f L).1
  | _ => True

theorem geo_call {W : World K V} {s : IGA K V} {f : Layout K → Geo K × Option (List K)} (hf : ∀ L, GeoFits L (f L).1) :
    (call W s (.geo f)).1 = (if s.layout.isSome ∧ 1 ≤ s.stage then .ok () else .err .wrongState) ∧
      bare (call W s (.geo f)).2 = bare s ∧ (call W s (.geo f)).2.axes = s.axes := by
  unfold call
  cases hl : s.layout with
  | none => simp
  | some L =>
    have := hf L
    simp only [setGeo, hl, Option.isSome_some, true_and]
    by_cases c : 1 ≤ s.stage
    · rw [if_pos ⟨c, this⟩, if_pos c]
      exact ⟨rfl, by simp only [bare, hl], rfl⟩
    · rw [if_neg (fun h => c h.1), if_neg c]
      exact ⟨rfl, rfl, rfl⟩

theorem call_same (W : World K V) (r : Int) (hW : 0 ≤ W.rank ∧ W.rank < W.size) (h0 : 0 ≤ r) (h1 : r < W.size)
    {s t : IGA K V} (hr : Ready s) (h : bare s = bare t) (c : Call K V) (hc : LegalCall c) :
    (call W s c).1 = (call { W with rank := r } t c).1 ∧ bare (call W s c).2 = bare (call { W with rank := r } t c).2 := by
  cases c with
  | geo f =>
    have a := geo_call (W := W) (s := s) (f := f) hc
    have b := geo_call (W := { W with rank := r }) (s := t) (f := f) hc
    have hA := agree_of h
    have hl : s.layout.isSome = t.layout.isSome := by
      have := congrArg Option.isSome hA.layout
      simpa using this
    rw [a.1, b.1, a.2.1, b.2.1, hl, hA.stage]
    exact ⟨rfl, h⟩
  | op o =>
    cases o with
    | setDim d => exact (blind_setDim d).same h
    | setDof d => exact (blind_setDof d).same h
    | setOrder d => exact (blind_setOrder d).same h
    | setBasisType i b => exact (blind_setBasisType i b).same h
    | setRuleType i b => exact (blind_setRuleType i b).same h
    | setRuleSize i b => exact (blind_setRuleSize i b).same h
    | setQuadrature i b => exact (blind_setQuadrature i b).same h
    | setProcessors i b => exact (blind_setProcessors W i b).same h
    | setCollocation b => exact (blind_setCollocation b).same h
    | axis i f => exact (blind_axisCall i f).same h
    | setGeo g fx => exact hc.elim
    | setUp => exact setUp_same W r hW h0 h1 hr h
    | reset => exact blind_reset.same h

theorem ready_call (W : World K V) {s : IGA K V} (hr : Ready s) (c : Call K V) (hc : LegalCall c) (h : (call W s c).1 = .ok ()) :
    Ready (call W s c).2 := by
  have frame : (call W s c).2.axes = s.axes → Ready (call W s c).2 := fun e ax hax => hr ax (e ▸ hax)
  cases c with
  | geo f => exact frame (geo_call hc).2.2
  | op o =>
    cases o with
    | setDim d => apply frame; simp only [call, step, setDim]; split_ifs <;> rfl
    | setDof d => apply frame; simp only [call, step, setDof]; split_ifs <;> rfl
    | setOrder d => apply frame; simp only [call, step, setOrder]; split_ifs <;> rfl
    | setBasisType i b =>
      apply frame
      simp only [call, step, setBasisType]
      split_ifs
      · rfl
      · rcases checkDir s i with k | e | _ <;> dsimp only
        split_ifs <;> rfl
    | setRuleType i b =>
      obtain ⟨_, _, e, -⟩ := ruleOp_frame W s (.setRuleType i b) trivial
      exact frame (by simp only [call]; rw [e])
    | setRuleSize i b =>
      obtain ⟨_, _, e, -⟩ := ruleOp_frame W s (.setRuleSize i b) trivial
      exact frame (by simp only [call]; rw [e])
    | setQuadrature i b =>
      obtain ⟨_, _, e, -⟩ := ruleOp_frame W s (.setQuadrature i b) trivial
      exact frame (by simp only [call]; rw [e])
    | setProcessors i b =>
      apply frame
      simp only [call, step, setProcessors]
      rcases checkDir s i with k | e | _ <;> dsimp only <;> split_ifs <;> rfl
    | setCollocation b => apply frame; simp only [call, step, setCollocation]; split_ifs <;> rfl
    | axis i f =>
      simp only [call, step, axisCall] at h ⊢
      rcases hk : checkDir s i with k | e | _
      · rw [hk] at h
        dsimp only at h ⊢
        cases ha : s.axes[k]? with
        | none => rw [ha] at h; simp at h
        | some ax =>
          rw [ha] at h
          dsimp only at h ⊢
          intro x hx
          rcases List.mem_or_eq_of_mem_set hx with hx | rfl
          · exact hr x hx
          · exact hc ax (hr ax (List.mem_of_getElem? ha)) h
      · exact hr
      · exact hr
    | setGeo g fx => exact hc.elim
    | setUp => exact ready_setUp W hr h
    | reset => exact frame rfl

/-! ### The property -/

theorem program_same (W : World K V) (r : Int) (hW : 0 ≤ W.rank ∧ W.rank < W.size) (h0 : 0 ≤ r) (h1 : r < W.size) :
    ∀ (cs : List (Call K V)), (∀ c ∈ cs, LegalCall c) → ∀ {s t : IGA K V}, Ready s → bare s = bare t →
      (program W s cs).1 = (program { W with rank := r } t cs).1 ∧
      bare (program W s cs).2 = bare (program { W with rank := r } t cs).2 := by
  intro cs
  induction cs with
  | nil => intro _ s t _ h; exact ⟨rfl, h⟩
  | cons c cs ih =>
    intro hl s t hr h
    have k := call_same W r hW h0 h1 hr h c (hl c (by simp))
    have q := ready_call W hr c (hl c (by simp))
    simp only [program]
    obtain ⟨x, hx⟩ : ∃ x, x = call W s c := ⟨_, rfl⟩
    obtain ⟨y, hy⟩ : ∃ y, y = call { W with rank := r } t c := ⟨_, rfl⟩
    rw [← hx, ← hy] at k
    rw [← hx] at q
    rw [← hx, ← hy]
    obtain ⟨a, s'⟩ := x
    obtain ⟨b, t'⟩ := y
    dsimp only at k q
    obtain ⟨rfl, k2⟩ := k
    cases a with
    | ok u =>
      have := ih (fun c hc => hl c (List.mem_cons_of_mem _ hc)) (q rfl) k2
      exact ⟨by simp only [this.1], this.2⟩
    | err e => exact ⟨rfl, k2⟩
    | ub => exact ⟨rfl, k2⟩

/-- **C115**: all processes of a communicator that run the same configuration program get the same outcome from every call
of it, up to and including the first that fails (so a program succeeds on all processes or is left by all of them at the same
call with the same error), and hold the same discretisation at the end. -/
theorem C115_same_outcome (W : World K V) (cs : List (Call K V)) (ha : AxisCalls cs) (hg : LocalArrays cs)
    (r r' : Int) (h0 : 0 ≤ r) (h1 : r < W.size) (h0' : 0 ≤ r') (h1' : r' < W.size) :
    (program { W with rank := r } (create W) cs).1 = (program { W with rank := r' } (create W) cs).1 ∧
    Agree (program { W with rank := r } (create W) cs).2 (program { W with rank := r' } (create W) cs).2 := by
  have hl : ∀ c ∈ cs, LegalCall c := by
    intro c hc
    cases c with
    | geo f => exact hg.2 f hc
    | op o =>
      cases o with
      | axis i f => exact ha i f hc
      | setGeo g fx => exact hg.1 g fx hc
      | _ => trivial
  have hr : Ready (create W) := by
    intro ax hax
    rw [List.eq_of_mem_replicate (show ax ∈ List.replicate 3 (Ax.create W.junk) from hax)]
    exact .create _
  have := program_same { W with rank := r } r' ⟨h0, h1⟩ h0' h1' cs hl hr (rfl : bare (create W) = bare (create W))
  exact ⟨this.1, agree_of this.2⟩

/-! ### A concrete program -/

/-- A periodic-free one-dimensional program: 4 elements of degree 2, two fields, set-up, weights for the local box. -/
def exProgram (n : Int) : List (Call Rat Unit) :=
  [.op (.setDim 1), .op (.axis 0 (exAxisCall n)), .op (.setDof 2), .op .setUp,
   .geo fun L => ({ Geo.none with rational := true, W := some (List.replicate (geoCount L) 1) }, none), .op (.setDim 2)]

theorem exProgram_legal (n : Int) : AxisCalls (exProgram n) ∧ LocalArrays (exProgram n) := by
  refine ⟨?_, ?_, ?_⟩
  · intro i f hf ax hax hok
    simp only [exProgram, List.mem_cons, Call.op.injEq, Op.axis.injEq, reduceCtorEq, List.not_mem_nil, or_false, false_or] at hf
    obtain ⟨-, rfl⟩ := hf
    exact Reached.step _ (.initUniform (fun _ => 0) n 0 1 (-1)) (Reached.step _ (.setDegree 2) (.create _) (by
      simp [Ax.step, setDegree, Ax.create])) hok
  · intro g fx h
    simp [exProgram] at h
  · intro f hf L
    simp only [exProgram, List.mem_cons, Call.geo.injEq, reduceCtorEq, List.not_mem_nil, or_false, false_or] at hf
    subst hf
    exact ⟨by simp, by simp [Geo.none], by simp [Geo.none]⟩

/-- On two processes the set-up succeeds, the last call fails on both, and the boxes of the processes are different; on five
processes four elements are too few and the set-up fails on all of them. -/
example : (program { exWorld 2 with rank := 0 } (create (exWorld 2)) (exProgram 4)).1 =
      [.ok (), .ok (), .ok (), .ok (), .ok (), .err .wrongState] ∧
    (program { exWorld 2 with rank := 0 } (create (exWorld 2)) (exProgram 4)).2.layout.map (fun L => L.ranks) = some [0] ∧
    (program { exWorld 2 with rank := 1 } (create (exWorld 2)) (exProgram 4)).2.layout.map (fun L => L.ranks) = some [1] ∧
    (program { exWorld 5 with rank := 3 } (create (exWorld 5)) (exProgram 4)).1 = [.ok (), .ok (), .ok (), .err .outOfRange] := by
  decide +kernel

end PetIGA.SetUp
