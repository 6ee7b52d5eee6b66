import Verif.Props.IO
import Verif.Props.Clone
/-! Property theorems about `IGASave` and `IGALoad`: C45. -/
set_option linter.unusedSectionVars false
namespace PetIGA.IO
open PetIGA.Ax PetIGA.Lay PetIGA.Grid PetIGA.Spec PetIGA.Part PetIGA.Asm
open PetIGA.SetUp (IGA Geo copyAxis SameAxis)

variable {K V : Type} [Field K] [LinearOrder K] [IsStrictOrderedRing K]

/-! ### One axis -/

theorem knotsOf_copy (junk : Int → K) (ax : Axis K) (h : 0 ≤ ax.m) :
    knotsOf junk ((List.range (ax.m+1).toNat).map fun (k : Nat) => ax.U k) = (copyAxis junk ax).U := by
  funext i
  unfold knotsOf copyAxis
  rw [List.length_map, List.length_range]
  dsimp only
  by_cases hi : 0 ≤ i ∧ i ≤ ax.m
  · rw [if_pos hi, if_pos (by omega), List.getD_eq_getElem?_getD, List.getElem?_map, List.getElem?_range (by omega), Option.map_some,
      Option.getD_some, Int.toNat_of_nonneg hi.1]
  · rw [if_neg hi, if_neg (by omega)]

theorem spansLoop_congr {m : Int} {U U' : Int → K} (h : ∀ i, 0 ≤ i → i ≤ m → U' i = U i) (n : Int) :
    ∀ (f : Nat) (k : Int), spansLoop n m U' f k = spansLoop n m U f k := by
  intro f
  induction f with
  | zero => intro k; rfl
  | succ f ih => intro k; simp only [spansLoop, nextKnot_congr h, ih]

theorem computeNnp_congr {p m : Int} {U U' : Int → K} (h : ∀ i, 0 ≤ i → i ≤ m → U' i = U i) (b : Bool) :
    computeNnp b p m U' = computeNnp b p m U := by
  unfold computeNnp
  dsimp only
  rw [nextKnot_congr h]

theorem legal_congr {p m : Int} {U U' : Int → K} (h : ∀ i, 0 ≤ i → i ≤ m → U' i = U i) (hl : LegalKnots p m U) :
    LegalKnots p m U' := by
  have hp := hl.degree
  have hm := hl.enough
  refine ⟨hp, hm, ?_, ?_⟩
  · intro i h0 h1
    rw [h i (by omega) (by omega), h (i+1) (by omega) (by omega)]
    exact hl.sorted i h0 h1
  · intro i h1 h2
    rw [h i (by omega) (by omega), h (i+p) (by omega) (by omega)]
    exact hl.mult i h1 h2

/-- Reading the knots of an axis into an axis with the same periodic flag makes a copy of it. -/
theorem init_copy (junk : Int → K) {ax b : Axis K} (hw : WF ax) (hb : b.periodic = ax.periodic) :
    Ax.init b ax.p ax.m (copyAxis junk ax).U = (.ok (), copyAxis junk ax) := by
  have hU : ∀ i, 0 ≤ i → i ≤ ax.m → (copyAxis junk ax).U i = ax.U i := (SetUp.copyAxis_same junk ax).knots
  have hp := hw.legal.degree
  have hl := legal_congr hU hw.legal
  unfold Ax.init setDegree
  dsimp only
  rw [if_neg (by omega), if_neg (by omega)]
  dsimp only
  have ok := (C05_accepts_exactly_legal { b with p := ax.p } ax.m (copyAxis junk ax).U).2 hl
  unfold setKnots at ok ⊢
  split_ifs at ok ⊢
  dsimp only
  have e1 : computeSpans ax.p ax.m (copyAxis junk ax).U = ax.span := by
    rw [hw.span]; unfold computeSpans; rw [spansLoop_congr hU]
  rw [e1, computeNnp_congr hU, hb, ← hw.nnp, ← hw.nel]
  rfl

theorem setUp_wf {ax : Axis K} (hw : WF ax) : Ax.setUp ax = (.ok (), ax) := by
  have hp := hw.legal.degree
  have hm := hw.legal.enough
  unfold Ax.setUp
  rw [if_neg (by omega), if_neg (by omega)]
  dsimp only
  rw [← hw.nnp, ← hw.span, ite_self]
  by_cases h : ax.span = []
  · rw [if_pos h, ← hw.nel]
  · rw [if_neg h]

theorem setUpAxes_wf : ∀ {axs : List (Axis K)}, (∀ ax ∈ axs, WF ax) → setUpAxes axs = .ok axs
  | [], _ => rfl
  | ax :: axs, h => by
    unfold setUpAxes
    rw [setUp_wf (h ax (by simp)), setUpAxes_wf fun a ha => h a (by simp [ha])]
    rfl

theorem copy_wf (junk : Int → K) {ax : Axis K} (hw : WF ax) : WF (copyAxis junk ax) := by
  have hU : ∀ i, 0 ≤ i → i ≤ ax.m → (copyAxis junk ax).U i = ax.U i := (SetUp.copyAxis_same junk ax).knots
  refine ⟨⟨legal_congr hU hw.legal, ?_, hw.nel⟩, ?_⟩
  · show ax.span = computeSpans ax.p ax.m _
    rw [hw.span]; unfold computeSpans; rw [spansLoop_congr hU]
  · show ax.nnp = computeNnp ax.periodic ax.p ax.m _
    rw [computeNnp_congr hU, ← hw.nnp]

theorem copy_reached (junk : Int → K) {ax : Axis K} (hw : WF ax) : Reached (copyAxis junk ax) := by
  have h1 : Reached (setPeriodic (Ax.create junk) ax.periodic).2 :=
    Reached.step _ (.setPeriodic ax.periodic) (Reached.create junk) rfl
  have e := init_copy junk (b := (setPeriodic (Ax.create junk) ax.periodic).2) hw rfl
  have h2 := Reached.step _ (.init ax.p ax.m (copyAxis junk ax).U) h1 (by show (Ax.init _ _ _ _).1 = _; rw [e])
  rw [show (step (setPeriodic (Ax.create junk) ax.periodic).2 (.init ax.p ax.m (copyAxis junk ax).U)).2 = copyAxis junk ax from by
    show (Ax.init _ _ _ _).2 = _; rw [e]] at h2
  exact h2

theorem axisToks_same {a b : Axis K} (h : SameAxis a b) : axisToks b = axisToks a := by
  unfold axisToks
  rw [h.p, h.m]
  congr 1
  apply List.map_congr_left
  intro k hk
  have := List.mem_range.1 hk
  rw [h.knots k (by omega) (by omega)]

theorem same_trans {a b c : Axis K} (h : SameAxis a b) (h' : SameAxis b c) : SameAxis a c :=
  ⟨h'.periodic.trans h.periodic, h'.p.trans h.p, h'.m.trans h.m, h'.nnp.trans h.nnp, h'.nel.trans h.nel, h'.span.trans h.span,
    fun i h0 h1 => (h'.knots i h0 (by rw [h.m]; exact h1)).trans (h.knots i h0 h1)⟩

/-! ### The head of the file -/

theorem loadAxes_ok (junk : Int → K) : ∀ (axs : List (Axis K)) (i : Nat) (s : IGA K V) (rest : File K), (∀ ax ∈ axs, WF ax) →
    0 < s.dim → (i:Int) + axs.length ≤ s.dim → i + axs.length ≤ s.axes.length →
    (∀ (k : Nat) ax b, axs[k]? = some ax → s.axes[i+k]? = some b → b.periodic = ax.periodic) →
    loadAxes junk axs.length i s (axs.flatMap axisToks ++ rest) =
      (.ok rest, { s with axes := s.axes.take i ++ axs.map (copyAxis junk) ++ s.axes.drop (i + axs.length) }) := by
  intro axs
  induction axs with
  | nil => intro i s rest _ _ _ _ _; simp [loadAxes]
  | cons ax axs ih =>
    intro i s rest hw hd hi hl hper
    rw [List.length_cons] at hi hl
    have hwf := hw ax (by simp)
    have hm := hwf.legal.enough
    have hp := hwf.legal.degree
    obtain ⟨b, hb⟩ : ∃ b, s.axes[i]? = some b := ⟨s.axes[i]'(by omega), by simp⟩
    rw [List.length_cons, List.flatMap_cons]
    unfold loadAxes
    have hr := readNums_ok (axs.flatMap axisToks ++ rest) ((List.range (ax.m+1).toNat).map fun (k : Nat) => ax.U k)
    rw [List.length_map, List.length_range, List.map_map] at hr
    have e : axisToks ax ++ axs.flatMap axisToks ++ rest = .int ax.p :: .int (ax.m+1) ::
        ((List.range (ax.m+1).toNat).map (Tok.num ∘ fun (k : Nat) => ax.U k) ++ (axs.flatMap axisToks ++ rest)) := by
      unfold axisToks
      simp only [List.cons_append, List.nil_append, List.append_assoc]
      rfl
    rw [e]
    have hc : check (0 ≤ ax.m+1) Err.lib = .ok () := by unfold check; exact if_pos (by omega)
    simp only [readInt, onRead, hc, hr]
    have hx : SetUp.axisCall s (i:Int) (fun a => Ax.init a ax.p (ax.m+1-1)
        (knotsOf junk ((List.range (ax.m+1).toNat).map fun (k : Nat) => ax.U k))) =
        (.ok (), { s with axes := s.axes.set i (copyAxis junk ax) }) := by
      unfold SetUp.axisCall SetUp.checkDir
      rw [if_neg (by omega), if_neg (by rw [if_pos hd]; omega)]
      dsimp only
      rw [Int.toNat_natCast, hb]
      dsimp only
      rw [knotsOf_copy junk ax (by omega), show ax.m + 1 - 1 = ax.m by omega,
        init_copy junk hwf (hper 0 ax b (by simp) (by simpa using hb))]
    rw [hx]
    simp only [onCall]
    rw [ih (i+1) { s with axes := s.axes.set i (copyAxis junk ax) } rest (fun a ha => hw a (by simp [ha])) hd (by push_cast; omega)
      (by rw [List.length_set]; omega) ?_]
    · congr 2
      have hil : i < s.axes.length := by omega
      dsimp only
      rw [List.drop_set_of_lt (by omega), List.take_succ_eq_append_getElem (by rw [List.length_set]; exact hil), List.take_set,
        List.getElem_set_self, List.set_eq_of_length_le (by rw [List.length_take]; omega)]
      simp [Nat.add_assoc, Nat.add_comm 1]
    · intro k a b' ha hb'
      dsimp only at hb'
      rw [List.getElem?_set_ne (by omega), show i + 1 + k = i + (k+1) by omega] at hb'
      exact hper (k+1) a b' (by simpa using ha) hb'

/-- A description of a discretisation with its control net: the axes, `nsd` coordinates and a weight per control point (no
geometry if `nsd = 0`), `npd` properties per control point (none if `npd = 0`). -/
structure Net (K : Type) [Field K] [LinearOrder K] [IsStrictOrderedRing K] where
  axs : List (Axis K)
  nsd : Nat
  coord : List Int → Nat → K
  w : List Int → K
  npd : Nat
  prop : List Int → Nat → K

/-- The object of one process, with layout `L`, is that of the description: dimension, axes (degree, knots, periodicity,
spans, node counts), and its part of the control net. -/
structure Describes (D : Net K) (s : IGA K V) (L : Layout K) : Prop where
  dim : s.dim = D.axs.length
  axes : List.Forall₂ SameAxis D.axs (s.axes.take D.axs.length)
  layout : s.layout = some L
  nsd : s.geo.nsd = D.nsd
  npd : s.geo.npd = D.npd
  geometry : 1 ≤ D.nsd → HasGeometry D.nsd D.coord D.w (L, s.geo)
  property : 1 ≤ D.npd → HasProperty D.npd D.prop (L, s.geo)

/-- What `IGALoad` needs of the object it is called with: the dimension is not set or the same, the periodic flags of its
axes are those of the description. -/
structure Target (axs : List (Axis K)) (colloc : Bool) (procs : List Int) (t : IGA K V) : Prop where
  dim : t.dim ≤ 0 ∨ t.dim = axs.length
  three : t.axes.length = 3
  flags : ∀ (k : Nat) ax b, axs[k]? = some ax → t.axes[k]? = some b → b.periodic = ax.periodic
  colloc : t.colloc = colloc
  procs : t.procs.take axs.length = procs

/-- The object after the head of the file. -/
structure Head (axs : List (Axis K)) (s : IGA K V) (L : Layout K) : Prop where
  dim : s.dim = axs.length
  axes : List.Forall₂ SameAxis axs (s.axes.take axs.length)
  layout : s.layout = some L
  geo : s.geo = Geo.none

theorem same_copies (junk : Int → K) : ∀ axs : List (Axis K), List.Forall₂ SameAxis axs (axs.map (copyAxis junk))
  | [] => .nil
  | a :: axs => .cons (SetUp.copyAxis_same junk a) (same_copies junk axs)

theorem toks_same {a b : List (Axis K)} (h : List.Forall₂ SameAxis a b) : b.flatMap axisToks = a.flatMap axisToks := by
  induction h with
  | nil => rfl
  | cons h _ ih => rw [List.flatMap_cons, List.flatMap_cons, axisToks_same h, ih]

theorem head_toks {D : Net K} {s : IGA K V} {L : Layout K} (h : Describes D s L) (skip : Bool) :
    headToks skip s = (if skip then [] else [.int igaClassid]) ++
      [.int ((if D.nsd ≠ 0 then 1 else 0) + (if D.npd ≠ 0 then 2 else 0)), .int D.axs.length] ++ D.axs.flatMap axisToks := by
  unfold headToks
  rw [h.dim, Int.toNat_natCast, toks_same h.axes, h.nsd, h.npd]
  simp only [ne_eq, Nat.cast_eq_zero]

theorem loadHead_ok {D : Net K} {s : IGA K V} {L : Layout K} (h : Describes D s L) (skip : Bool) (W : SetUp.World K V)
    {t : IGA K V} {colloc : Bool} {procs : List Int} (ht : Target D.axs colloc procs t) (hw : ∀ ax ∈ D.axs, WF ax)
    (hd : 1 ≤ D.axs.length ∧ D.axs.length ≤ 3) {L' : Layout K}
    (hL : Lay.stage1 W.g2 W.g3 colloc W.size W.rank procs (D.axs.map (copyAxis W.junk)) = .ok L')
    (hax : L'.axes = D.axs.map (copyAxis W.junk)) (rest : File K) :
    ∃ t', loadHead skip W t (headToks skip s ++ rest) = (.ok ((decide (D.nsd ≠ 0), decide (D.npd ≠ 0)), rest), t') ∧
      Head D.axs t' L' := by
  rw [head_toks h]
  unfold loadHead
  have h1 : readClassid skip ((if skip then [] else [.int igaClassid]) ++
      [.int ((if D.nsd ≠ 0 then 1 else 0) + (if D.npd ≠ 0 then 2 else 0)), .int D.axs.length] ++ D.axs.flatMap axisToks ++ rest) =
      .ok (.int ((if D.nsd ≠ 0 then 1 else 0) + (if D.npd ≠ 0 then 2 else 0)) :: .int D.axs.length ::
        (D.axs.flatMap axisToks ++ rest)) := by
    unfold readClassid
    cases skip <;> simp [readInt, check, Res.bind]
  rw [h1]
  have h2 : SetUp.setDim { t with setup := false, stage := 0, geo := Geo.none, fixtable := none, grid := none, iter := false }
      D.axs.length = (.ok (), { t with setup := false, stage := 0, geo := Geo.none, fixtable := none, grid := none, iter := false, dim := D.axs.length }) := by
    unfold SetUp.setDim
    rw [if_neg (by omega), if_neg]
    dsimp only
    have := ht.dim
    omega
  have h3 := loadAxes_ok W.junk D.axs 0 { t with setup := false, stage := 0, geo := Geo.none, fixtable := none, grid := none, iter := false, dim := D.axs.length }
    rest hw (by dsimp only; omega) (by dsimp only; omega) (by dsimp only; rw [ht.three]; omega)
    (by intro k ax b h1 h2; rw [Nat.zero_add] at h2; exact ht.flags k ax b h1 h2)
  simp only [onRead, onCall, readInt, SetUp.reset, h2, Int.toNat_natCast, h3]
  unfold setUpBasic
  rw [if_neg (by dsimp only; omega)]
  unfold SetUp.stage1
  rw [if_neg (by simp)]
  dsimp only
  have e1 : (List.take 0 t.axes ++ D.axs.map (copyAxis W.junk) ++ List.drop (0 + D.axs.length) t.axes).take D.axs.length =
      D.axs.map (copyAxis W.junk) := by
    rw [List.take_zero, List.nil_append, List.take_left' (by simp)]
  rw [Int.toNat_natCast, e1, ht.procs, ht.colloc, hL]
  dsimp only
  have f1 : ∀ a b : Nat, decide (((if a ≠ 0 then (1:Int) else 0) + if b ≠ 0 then 2 else 0) % 2 = 1) = decide (a ≠ 0) := by
    intro a b
    by_cases ha : a = 0 <;> by_cases hb : b = 0 <;> simp [ha, hb]
  have f2 : ∀ a b : Nat, decide (((if a ≠ 0 then (1:Int) else 0) + if b ≠ 0 then 2 else 0) / 2 % 2 = 1) = decide (b ≠ 0) := by
    intro a b
    by_cases ha : a = 0 <;> by_cases hb : b = 0 <;> simp [ha, hb]
  rw [f1, f2]
  refine ⟨_, rfl, rfl, ?_, rfl, rfl⟩
  dsimp only
  rw [hax, List.take_left' (by simp)]
  exact same_copies _ _

/-! ### Geometry and properties in the file -/

theorem parts_ok {ss : List (IGA K V)} {Ls : List (Layout K)} {P : IGA K V → Layout K → Prop} (h : List.Forall₂ P ss Ls)
    (hl : ∀ s L, P s L → s.layout = some L) :
    ∃ ps, parts ss = .ok ps ∧ ps.map Prod.fst = Ls ∧ List.Forall₂ (fun s (q : Piece K) => q.2 = s.geo ∧ P s q.1) ss ps := by
  unfold parts
  induction h with
  | nil => exact ⟨[], rfl, rfl, .nil⟩
  | @cons s L ss Ls h _ ih =>
    obtain ⟨ps, e, e1, e2⟩ := ih
    refine ⟨(L, s.geo) :: ps, ?_, by rw [List.map_cons, e1], .cons ⟨rfl, h⟩ e2⟩
    unfold mapRes
    rw [hl s L h, e]
    rfl

variable {Gs : List Int}

/-- The geometry part of the file. -/
def GeoFile (skip : Bool) (Gs : List Int) (D : Net K) (f : File K) : Prop :=
  if D.nsd ≠ 0 then ∃ v, f = .int D.nsd :: vecView skip (((D.nsd+1:Nat):Int) * prod Gs).toNat v ∧
    ∀ x c, InBox Gs x → c < D.nsd+1 → v (((D.nsd+1:Nat):Int) * flat Gs x + (c:Nat)) = homogeneous D.nsd D.coord D.w x c
  else f = []

/-- The property part of the file. -/
def PropFile (skip : Bool) (Gs : List Int) (D : Net K) (f : File K) : Prop :=
  if D.npd ≠ 0 then ∃ v, f = .int D.npd :: vecView skip ((D.npd:Int) * prod Gs).toNat v ∧
    ∀ x c, InBox Gs x → c < D.npd → v ((D.npd:Int) * flat Gs x + (c:Nat)) = D.prop x c
  else f = []

theorem saveGeoPart_ok (E : Env K V) {D : Net K} {s : IGA K V} {ps : List (Piece K)} (H : IOGrid Gs (ioWorld (ps.map Prod.fst)))
    (hs : s.geo.nsd = D.nsd) (hg : 1 ≤ D.nsd → ∀ q ∈ ps, HasGeometry D.nsd D.coord D.w q) (f : File K) :
    ∃ g, saveGeoPart E s ps f = (.ok (), f ++ g) ∧ GeoFile E.skip Gs D g := by
  unfold saveGeoPart GeoFile
  rw [hs]
  by_cases h : D.nsd = 0
  · rw [if_neg (by simp [h])]
    exact ⟨[], by simp, by rw [if_neg (by simp [h])]⟩
  · obtain ⟨v, e, hv⟩ := saveGeometry_ok H E.skip E.mem (by omega) (hg (by omega))
    rw [if_pos (by simp [h]), Int.toNat_natCast, e]
    exact ⟨_, rfl, by rw [if_pos h]; exact ⟨v, rfl, hv⟩⟩

theorem savePropPart_ok (E : Env K V) {D : Net K} {s : IGA K V} {ps : List (Piece K)} (H : IOGrid Gs (ioWorld (ps.map Prod.fst)))
    (hs : s.geo.npd = D.npd) (hg : 1 ≤ D.npd → ∀ q ∈ ps, HasProperty D.npd D.prop q) (f : File K) :
    ∃ g, savePropPart E s ps f = (.ok (), f ++ g) ∧ PropFile E.skip Gs D g := by
  unfold savePropPart PropFile
  rw [hs]
  by_cases h : D.npd = 0
  · rw [if_neg (by simp [h])]
    exact ⟨[], by simp, by rw [if_neg (by simp [h])]⟩
  · obtain ⟨v, e, hv⟩ := saveProperty_ok H E.skip E.mem (by omega) (hg (by omega))
    rw [if_pos (by simp [h]), Int.toNat_natCast, e]
    exact ⟨_, rfl, by rw [if_pos h]; exact ⟨v, rfl, hv⟩⟩

theorem forall2_trans {α β γ : Type} {R : α → β → Prop} {S : β → γ → Prop} {a : List α} {b : List β} {c : List γ}
    (h : List.Forall₂ R a b) (h' : List.Forall₂ S b c) : List.Forall₂ (fun x z => ∃ y, R x y ∧ S y z) a c := by
  induction h generalizing c with
  | nil => cases h'; exact .nil
  | cons h1 _ ih => cases h' with
    | cons h2 h3 => exact .cons ⟨_, h1, h2⟩ (ih h3)

theorem forall2_self {α : Type} {R : α → α → Prop} : ∀ (l : List α), (∀ a ∈ l, R a a) → List.Forall₂ R l l
  | [], _ => .nil
  | a :: l, h => .cons (h a (by simp)) (forall2_self l fun b hb => h b (by simp [hb]))

theorem forall2_and {α β : Type} {R S : α → β → Prop} {a : List α} {b : List β}
    (h : List.Forall₂ R a b) (hS : ∀ x ∈ a, ∀ y, R x y → S x y) : List.Forall₂ S a b := by
  induction h with
  | nil => exact .nil
  | cons h1 _ ih => exact .cons (hS _ (by simp) _ h1) (ih fun x hx => hS x (by simp [hx]))

/-- What one process has after the geometry part. -/
structure GeoDone (Gs : List Int) (D : Net K) (tol : K) (q q' : Piece K) : Prop where
  same : q'.1 = q.1
  nsd : q'.2.nsd = D.nsd
  npd : q'.2.npd = 0
  geometry : 1 ≤ D.nsd → HasGeometry D.nsd D.coord D.w q' ∧
    (q'.2.rational = true ↔ ∃ x y, InBox Gs x ∧ InBox Gs y ∧ D.w x - D.w y > tol)
  none : D.nsd = 0 → q'.2.rational = false

theorem loadGeoPart_ok (E : Env K V) {D : Net K} {ps : List (Piece K)} (H : IOGrid Gs (ioWorld (ps.map Prod.fst)))
    (hps : ∀ q ∈ ps, q.2 = Geo.none) {dim : Int} (hn : D.nsd = 0 ∨ dim ≤ D.nsd ∧ D.nsd ≤ 3) {g : File K}
    (hg : GeoFile E.skip Gs D g) (rest : File K) :
    ∃ ps', loadGeoPart E dim (decide (D.nsd ≠ 0)) ps (g ++ rest) = .ok (ps', rest) ∧ List.Forall₂ (GeoDone Gs D E.tol) ps ps' := by
  unfold loadGeoPart
  unfold GeoFile at hg
  by_cases h : D.nsd = 0
  · rw [if_neg (by simp [h])] at hg ⊢
    subst hg
    refine ⟨ps, rfl, forall2_self _ fun q hq => ⟨rfl, ?_, ?_, by omega, ?_⟩⟩ <;> rw [hps q hq] <;> simp [Geo.none, h]
  · rw [if_pos h] at hg
    rw [if_pos (by simp [h])]
    obtain ⟨v, rfl, hv⟩ := hg
    have hm := mapRes_ok (f := fun (q : Piece K) => (setGeometryDim dim q.2 D.nsd).bind fun g => .ok (q.1, g))
      (P := fun q q' => q'.1 = q.1 ∧ q'.2.nsd = D.nsd ∧ q'.2.npd = 0) (l := ps) (by
        intro q hq
        rw [hps q hq]
        unfold setGeometryDim
        rw [if_neg (by omega), if_neg (by omega), if_neg (by simp [Geo.none]; omega)]
        exact ⟨_, rfl, rfl, rfl, rfl⟩)
    obtain ⟨ps1, e1, F1⟩ := hm
    rw [List.cons_append]
    simp only [readInt, Res.bind]
    simp only [Res.bind] at e1
    rw [e1]
    dsimp only
    rw [Int.toNat_natCast]
    have H1 : IOGrid Gs (ioWorld (ps1.map Prod.fst)) := by rw [fst_same (F1.imp fun _ _ h => h.1)]; exact H
    obtain ⟨ps', e, F⟩ := loadGeometry_ok H1 E.skip E.mem E.tol (by omega) hv rest
    refine ⟨ps', e, (forall2_trans F1 F).imp ?_⟩
    rintro q q' ⟨q1, ⟨a1, a2, a3⟩, b1, b2, b3, b4, b5, b6, b7⟩
    exact ⟨b1.trans a1, b4.trans a2, b5.trans a3, fun _ => ⟨b2, b3⟩, fun h0 => absurd h0 h⟩

/-- What one process has in the end. -/
structure Done (Gs : List Int) (D : Net K) (tol : K) (q q' : Piece K) : Prop where
  same : q'.1 = q.1
  nsd : q'.2.nsd = D.nsd
  npd : q'.2.npd = D.npd
  geometry : 1 ≤ D.nsd → HasGeometry D.nsd D.coord D.w q' ∧
    (q'.2.rational = true ↔ ∃ x y, InBox Gs x ∧ InBox Gs y ∧ D.w x - D.w y > tol)
  property : 1 ≤ D.npd → HasProperty D.npd D.prop q'
  none : D.nsd = 0 → q'.2.rational = false

theorem loadPropPart_ok (E : Env K V) {D : Net K} {ps0 ps : List (Piece K)} (H : IOGrid Gs (ioWorld (ps.map Prod.fst)))
    (hF : List.Forall₂ (GeoDone Gs D E.tol) ps0 ps) {g : File K} (hg : PropFile E.skip Gs D g) (rest : File K) :
    ∃ ps', loadPropPart E (decide (D.npd ≠ 0)) ps (g ++ rest) = .ok (ps', rest) ∧ List.Forall₂ (Done Gs D E.tol) ps0 ps' := by
  unfold loadPropPart
  unfold PropFile at hg
  by_cases h : D.npd = 0
  · rw [if_neg (by simp [h])] at hg ⊢
    subst hg
    refine ⟨ps, rfl, hF.imp fun q q' a => ⟨a.same, a.nsd, by rw [a.npd, h]; rfl, a.geometry, by omega, a.none⟩⟩
  · rw [if_pos h] at hg
    rw [if_pos (by simp [h])]
    obtain ⟨v, rfl, hv⟩ := hg
    have hm := mapRes_ok (f := fun (q : Piece K) => (setPropertyDim q.2 D.npd).bind fun g => .ok (q.1, g))
      (P := fun q q' => q'.1 = q.1 ∧ q'.2.npd = D.npd ∧ q'.2.nsd = q.2.nsd ∧ q'.2.rational = q.2.rational ∧ q'.2.X = q.2.X ∧ q'.2.W = q.2.W) (l := ps) (by
        intro q hq
        unfold setPropertyDim
        rw [if_neg (by omega)]
        by_cases hq : q.2.npd = (D.npd : Int)
        · rw [if_pos hq]; exact ⟨_, rfl, rfl, hq, rfl, rfl, rfl, rfl⟩
        · rw [if_neg hq]; exact ⟨_, rfl, rfl, rfl, rfl, rfl, rfl, rfl⟩)
    obtain ⟨ps1, e1, F1⟩ := hm
    rw [List.cons_append]
    simp only [readInt, Res.bind]
    simp only [Res.bind] at e1
    rw [e1]
    dsimp only
    rw [Int.toNat_natCast]
    have H1 : IOGrid Gs (ioWorld (ps1.map Prod.fst)) := by rw [fst_same (F1.imp fun _ _ h => h.1)]; exact H
    obtain ⟨ps', e, F⟩ := loadProperty_ok H1 E.skip E.mem (by omega) hv rest
    refine ⟨ps', e, (forall2_trans hF (forall2_trans F1 F)).imp ?_⟩
    rintro q q' ⟨q0, a, q1, ⟨b1, b2, b3, b4, b5, b6⟩, c1, c2, c3⟩
    have cn : q'.2.nsd = q1.2.nsd := by rw [c3]
    have cp : q'.2.npd = q1.2.npd := by rw [c3]
    have cr : q'.2.rational = q1.2.rational := by rw [c3]
    have cX : q'.2.X = q1.2.X := by rw [c3]
    have cW : q'.2.W = q1.2.W := by rw [c3]
    refine ⟨c1.trans (b1.trans a.same), by rw [cn, b3, a.nsd], by rw [cp, b2], fun hn => ⟨⟨?_, ?_⟩, ?_⟩, fun _ => c2, fun h0 => by rw [cr, b4, a.none h0]⟩
    · obtain ⟨X, e, hX⟩ := (a.geometry hn).1.points
      exact ⟨X, by rw [cX, b5, e], by rw [c1, b1]; exact hX⟩
    · have := (a.geometry hn).1.weights
      rw [c1, b1, cW, b6]; exact this
    · rw [cr, b4]; exact (a.geometry hn).2

/-! ### C45 -/

variable {g2 : Guess2} {g3 : Guess3} {colloc colloc' : Bool} {size : Int} {procs procs' : List Int} {axes : List (Axis K)}
  {Ls Ls' : List (Layout K)} {D : Net K}

theorem axs_wf {axs : List (Axis K)} (S : Setup g2 g3 colloc size procs axes axs Ls) : ∀ ax ∈ axs, WF ax := by
  have hlen := S.ranks.1
  have hne := S.nonempty
  obtain ⟨L, hL⟩ : ∃ L, Ls[0]? = some L := ⟨Ls[0]'(by omega), by simp⟩
  obtain ⟨h1, h2, -, -⟩ := S.get hL
  have := (stage1_all S.reached h1).1
  rwa [h2] at this

/-- The set-up of the program that loads. -/
theorem target_setup (hw : ∀ ax ∈ D.axs, WF ax) (hd : 1 ≤ D.axs.length ∧ D.axs.length ≤ 3) {E : Env K V} (hsz : 1 ≤ E.size)
    (R : AllRanks E.g2 E.g3 colloc' E.size procs' (D.axs.map (copyAxis E.junk)) Ls')
    (cond : ∀ ax ∈ D.axs, Condition colloc' (copyAxis E.junk ax)) :
    Setup E.g2 E.g3 colloc' E.size procs' (D.axs.map (copyAxis E.junk)) (D.axs.map (copyAxis E.junk)) Ls' := by
  refine ⟨?_, by simpa using hd, ?_, by omega, R, ?_⟩
  · intro ax h
    obtain ⟨a, ha, rfl⟩ := List.mem_map.1 h
    exact copy_reached _ (hw a ha)
  · apply setUpAxes_wf
    intro ax h
    obtain ⟨a, ha, rfl⟩ := List.mem_map.1 h
    exact copy_wf _ (hw a ha)
  · intro ax h
    obtain ⟨a, ha, rfl⟩ := List.mem_map.1 h
    exact cond a ha

theorem save_ok (S : Setup g2 g3 colloc size procs axes D.axs Ls)
    (hE : colloc = true → ∀ ax ∈ D.axs, EndSpans ax) {ss : List (IGA K V)} (hs : List.Forall₂ (Describes D) ss Ls)
    (hst : ∀ s ∈ ss, 2 ≤ s.stage) (E : Env K V) :
    ∃ (s : IGA K V) (L : Layout K) (g p : File K), Describes D s L ∧ save E ss = (.ok (), headToks E.skip s ++ g ++ p) ∧
      GeoFile E.skip (netSizes D.axs) D g ∧ PropFile E.skip (netSizes D.axs) D p := by
  obtain ⟨ps, ep, hfst, hF⟩ := parts_ok hs fun s L h => h.layout
  have H : IOGrid (netSizes D.axs) (ioWorld (ps.map Prod.fst)) := by rw [hfst]; exact io_grid S hE
  have hG : ∀ q ∈ ps, (1 ≤ D.nsd → HasGeometry D.nsd D.coord D.w q) ∧ (1 ≤ D.npd → HasProperty D.npd D.prop q) := by
    intro q hq
    obtain ⟨s, -, e, hd⟩ := forall2_mem_right hF q hq
    have : q = (q.1, s.geo) := by rw [← e]
    rw [this]
    exact ⟨hd.geometry, hd.property⟩
  obtain ⟨s, ss0, rfl⟩ : ∃ s ss0, ss = s :: ss0 := by
    cases ss with
    | nil => cases hs; have h1 := S.ranks.1; have h2 := S.nonempty; rw [List.length_nil] at h1; omega
    | cons s ss0 => exact ⟨s, ss0, rfl⟩
  have hsD : ∃ L, Describes D s L := by cases hs with | cons h _ => exact ⟨_, h⟩
  obtain ⟨L, hsD⟩ := hsD
  obtain ⟨g, eg, hgf⟩ := saveGeoPart_ok E H hsD.nsd (fun h q hq => (hG q hq).1 h) (headToks E.skip s)
  obtain ⟨p, epp, hpf⟩ := savePropPart_ok E H hsD.npd (fun h q hq => (hG q hq).2 h) (headToks E.skip s ++ g)
  have hstage := hst s (by simp)
  refine ⟨s, L, g, p, hsD, ?_, hgf, hpf⟩
  · unfold save
    rw [List.head?_cons]
    dsimp only
    rw [if_neg (by omega), ep]
    dsimp only
    rw [eg]
    exact epp

/-- C45: what any number of processes write with `IGASave`, any other number of processes read with `IGALoad`: the same
dimension, axes, control points, weights and properties.  The objects passed to `IGALoad` must have no dimension or the same
one, and, unlike what C45 says, the periodic flags of the file's discretisation (`C45_periodic_refuted`).  The other
hypotheses: `R` the mesh can be partitioned among the processes of the program that loads; `cond`, `cond'`, `hE`, `hE'`
first and last knot intervals, see `C46_geometry_round_trip_partial`. -/
theorem C45_round_trip_partial (S : Setup g2 g3 colloc size procs axes D.axs Ls)
    (hE : colloc = true → ∀ ax ∈ D.axs, EndSpans ax) {ss : List (IGA K V)} (hs : List.Forall₂ (Describes D) ss Ls)
    (hst : ∀ s ∈ ss, 2 ≤ s.stage) (hn : D.nsd = 0 ∨ D.axs.length ≤ D.nsd ∧ D.nsd ≤ 3) (E E' : Env K V) (hskip : E'.skip = E.skip)
    (hsz : 1 ≤ E'.size) (R : AllRanks E'.g2 E'.g3 colloc' E'.size procs' (D.axs.map (copyAxis E'.junk)) Ls')
    (cond' : ∀ ax ∈ D.axs, Condition colloc' (copyAxis E'.junk ax))
    (hE' : colloc' = true → ∀ ax ∈ D.axs, EndSpans (copyAxis E'.junk ax))
    {ts : List (IGA K V)} (hts : ts.length = E'.size) (ht : ∀ t ∈ ts, Target D.axs colloc' procs' t) (rest : File K) :
    ∃ file, save E ss = (.ok (), file) ∧
    ∃ ss', load E' ts (file ++ rest) = .ok ss' ∧ List.Forall₂ (fun s' L' => Describes D s' L' ∧
      (s'.geo.rational = true ↔ 1 ≤ D.nsd ∧ ∃ x y, InBox (netSizes D.axs) x ∧ InBox (netSizes D.axs) y ∧ D.w x - D.w y > E'.tol))
      ss' Ls' := by
  obtain ⟨s, L, g, p, hsD, esave, hgf, hpf⟩ := save_ok S hE hs hst E
  have hw := axs_wf S
  have hd : 1 ≤ D.axs.length ∧ D.axs.length ≤ 3 := by
    rw [setUpAxes_length S.set]; exact S.dim
  have S' := target_setup hw hd hsz R cond'
  have hE'' : colloc' = true → ∀ ax ∈ D.axs.map (copyAxis E'.junk), EndSpans ax := by
    intro h ax hax
    obtain ⟨a, ha, rfl⟩ := List.mem_map.1 hax
    exact hE' h a ha
  have hnet : netSizes (D.axs.map (copyAxis E'.junk)) = netSizes D.axs := by
    unfold netSizes; rw [List.map_map]; rfl
  refine ⟨headToks E.skip s ++ g ++ p, esave, ?_⟩
  -- loading
  have hlen' := R.1
  have hheads := mapRes_ok (f := fun (q : SetUp.IGA K V × Nat) => match loadHead E'.skip (E'.world q.2) q.1 (headToks E.skip s ++ g ++ p ++ rest) with
      | (.ok r, s) => .ok (r, s)
      | (.err e, _) => .err e
      | (.ub, _) => .ub)
    (P := fun q res => res.1 = ((decide (D.nsd ≠ 0), decide (D.npd ≠ 0)), g ++ (p ++ rest)) ∧ ∃ L', Ls'[q.2]? = some L' ∧ Head D.axs res.2 L')
    (l := ts.zipIdx) (by
      rintro ⟨t, r⟩ hq
      rw [List.mem_zipIdx_iff_getElem?] at hq
      have hr := (List.getElem?_eq_some_iff.1 hq).1
      obtain ⟨L', hL'⟩ : ∃ L', Ls'[r]? = some L' := ⟨Ls'[r]'(by omega), by simp⟩
      obtain ⟨h1, h2, -, -⟩ := S'.get hL'
      obtain ⟨t', e, hH⟩ := loadHead_ok hsD E'.skip (E'.world r) (ht t (List.mem_of_getElem? hq)) hw hd h1 h2 (g ++ (p ++ rest))
      rw [hskip] at e
      dsimp only
      rw [List.append_assoc, List.append_assoc, hskip, e]
      exact ⟨_, rfl, rfl, L', hL', hH⟩)
  obtain ⟨rs, er, hR⟩ := hheads
  have hrl : rs.length = Ls'.length := by
    have := hR.length_eq
    rw [List.length_zipIdx] at this
    omega
  have hget : ∀ r (h : r < rs.length) (h' : r < Ls'.length), rs[r].1 = ((decide (D.nsd ≠ 0), decide (D.npd ≠ 0)), g ++ (p ++ rest)) ∧ Head D.axs rs[r].2 Ls'[r] := by
    intro r h h'
    have := (List.forall₂_iff_get.1 hR).2 r (by rw [hR.length_eq]; exact h) h
    simp only [List.get_eq_getElem, List.getElem_zipIdx, Nat.zero_add] at this
    obtain ⟨a, L', hL', hH⟩ := this
    rw [List.getElem?_eq_getElem h', Option.some.injEq] at hL'
    exact ⟨a, by rw [hL']; exact hH⟩
  have hHeads : List.Forall₂ (Head D.axs) (rs.map Prod.snd) Ls' := by
    rw [List.forall₂_iff_get]
    refine ⟨by rw [List.length_map]; exact hrl, fun r h h' => ?_⟩
    simp only [List.get_eq_getElem, List.getElem_map]
    exact (hget r (by rw [List.length_map] at h; exact h) h').2
  obtain ⟨ps', ep', hfst', hF'⟩ := parts_ok hHeads fun s L h => h.layout
  have H' : IOGrid (netSizes D.axs) (ioWorld (ps'.map Prod.fst)) := by rw [hfst', ← hnet]; exact io_grid S' hE''
  have hnone : ∀ q ∈ ps', q.2 = Geo.none := by
    intro q hq
    obtain ⟨s, -, e, hd⟩ := forall2_mem_right hF' q hq
    rw [e, hd.geo]
  obtain ⟨ps2, e2, F2⟩ := loadGeoPart_ok E' (D := D) H' hnone (dim := D.axs.length) (by omega) (by rw [hskip]; exact hgf) (p ++ rest)
  have H2 : IOGrid (netSizes D.axs) (ioWorld (ps2.map Prod.fst)) := by rw [fst_same (F2.imp fun _ _ h => h.same)]; exact H'
  obtain ⟨ps3, e3, F3⟩ := loadPropPart_ok E' H2 F2 (by rw [hskip]; exact hpf) rest
  have h0 : ∃ s0, rs.head? = some (((decide (D.nsd ≠ 0), decide (D.npd ≠ 0)), g ++ (p ++ rest)), s0) ∧ s0.dim = D.axs.length := by
    have h1 : 0 < rs.length := by omega
    obtain ⟨a, b⟩ := hget 0 h1 (by omega)
    cases hrs : rs with
    | nil => rw [hrs] at h1; simp at h1
    | cons x xs =>
      simp only [hrs, List.getElem_cons_zero] at a b
      refine ⟨x.2, ?_, b.dim⟩
      rw [List.head?_cons, ← a]
  obtain ⟨s0, hh, hdim⟩ := h0
  refine ⟨List.zipWith (fun (q : ((Bool × Bool) × File K) × SetUp.IGA K V) (p : Piece K) => { q.2 with geo := p.2 }) rs ps3, ?_, ?_⟩
  · unfold load
    have : loadHeads E' ts (headToks E.skip s ++ g ++ p ++ rest) = .ok rs := er
    rw [this]
    simp only [Res.bind]
    rw [hh]
    dsimp only
    rw [ep']
    dsimp only
    rw [hdim, e2]
    dsimp only
    rw [e3]
  · have l1 : ps'.length = Ls'.length := by rw [← hfst', List.length_map]
    have l3 : ps3.length = ps'.length := F3.length_eq.symm
    rw [List.forall₂_iff_get]
    refine ⟨by rw [List.length_zipWith]; omega, fun r h h' => ?_⟩
    simp only [List.get_eq_getElem, List.getElem_zipWith]
    obtain ⟨-, hH⟩ := hget r (by omega) h'
    have hD := (List.forall₂_iff_get.1 F3).2 r (by omega) (by omega)
    simp only [List.get_eq_getElem] at hD
    have e1 : ps3[r].1 = Ls'[r] := by
      rw [hD.same]
      have : (ps'.map Prod.fst)[r]'(by rw [List.length_map]; omega) = Ls'[r] := by simp only [hfst']
      rwa [List.getElem_map] at this
    have e2 : (Ls'[r], ps3[r].2) = ps3[r] := by rw [← e1]
    refine ⟨⟨hH.dim, hH.axes, hH.layout, hD.nsd, hD.npd, fun hn => ?_, fun hn => ?_⟩, ?_⟩
    · dsimp only; rw [e2]; exact (hD.geometry hn).1
    · dsimp only; rw [e2]; exact hD.property hn
    · by_cases hz : D.nsd = 0
      · rw [hD.none hz]; simp [hz]
      · rw [(hD.geometry (by omega)).2]
        simp only [(by omega : 1 ≤ D.nsd), true_and]

theorem geoFile_unique {skip : Bool} {Gs : List Int} {D D' : Net K} (hG : ∀ g ∈ Gs, 1 ≤ g) (h1 : D'.nsd = D.nsd)
    (h2 : D'.coord = D.coord) (h3 : D'.w = D.w) {f f' : File K} (h : GeoFile skip Gs D f) (h' : GeoFile skip Gs D' f') : f' = f := by
  unfold GeoFile at h h'
  rw [h1, h2, h3] at h'
  by_cases hz : D.nsd = 0
  · rw [if_neg (by simp [hz])] at h h'
    rw [h, h']
  · rw [if_pos hz] at h h'
    obtain ⟨v, rfl, hv⟩ := h
    obtain ⟨v', rfl, hv'⟩ := h'
    rw [vecView_congr hG skip fun x c hx hc => by rw [hv' x c hx hc, ← hv x c hx hc]]

theorem propFile_unique {skip : Bool} {Gs : List Int} {D D' : Net K} (hG : ∀ g ∈ Gs, 1 ≤ g) (h1 : D'.npd = D.npd)
    (h2 : D'.prop = D.prop) {f f' : File K} (h : PropFile skip Gs D f) (h' : PropFile skip Gs D' f') : f' = f := by
  unfold PropFile at h h'
  rw [h1, h2] at h'
  by_cases hz : D.npd = 0
  · rw [if_neg (by simp [hz])] at h h'
    rw [h, h']
  · rw [if_pos hz] at h h'
    obtain ⟨v, rfl, hv⟩ := h
    obtain ⟨v', rfl, hv'⟩ := h'
    rw [vecView_congr hG skip fun x c hx hc => by rw [hv' x c hx hc, ← hv x c hx hc]]

/-- The same degree and knots; nothing about the periodic flag. -/
structure SameKnots (a b : Axis K) : Prop where
  p : b.p = a.p
  m : b.m = a.m
  knots : ∀ i : Int, 0 ≤ i → i ≤ a.m → b.U i = a.U i

theorem same_net {as bs : List (Axis K)} (h : List.Forall₂ SameKnots as bs) : netSizes bs = netSizes as := by
  unfold netSizes
  induction h with
  | nil => rfl
  | cons h _ ih => rw [List.map_cons, List.map_cons, ih, h.p, h.m]

theorem same_toks {as bs : List (Axis K)} (h : List.Forall₂ SameKnots as bs) : bs.flatMap axisToks = as.flatMap axisToks := by
  induction h with
  | nil => rfl
  | @cons a b _ _ h _ ih =>
    rw [List.flatMap_cons, List.flatMap_cons, ih]
    congr 1
    unfold axisToks
    rw [h.p, h.m]
    congr 1
    apply List.map_congr_left
    intro k hk
    have := List.mem_range.1 hk
    rw [h.knots k (by omega) (by omega)]

/-- C45: the file depends on the degrees, the knots and the control net only: not on the number of processes, nor on
collocation, nor on the periodic flags. -/
theorem C45_file_contents_partial {g2' : Guess2} {g3' : Guess3} {size' : Int} {axes' : List (Axis K)} {D' : Net K}
    (S : Setup g2 g3 colloc size procs axes D.axs Ls) (hE : colloc = true → ∀ ax ∈ D.axs, EndSpans ax)
    {ss : List (IGA K V)} (hs : List.Forall₂ (Describes D) ss Ls) (hst : ∀ s ∈ ss, 2 ≤ s.stage)
    (S' : Setup g2' g3' colloc' size' procs' axes' D'.axs Ls') (hE' : colloc' = true → ∀ ax ∈ D'.axs, EndSpans ax)
    {ss' : List (IGA K V)} (hs' : List.Forall₂ (Describes D') ss' Ls') (hst' : ∀ s ∈ ss', 2 ≤ s.stage)
    (hax : List.Forall₂ SameKnots D.axs D'.axs) (h1 : D'.nsd = D.nsd) (h2 : D'.coord = D.coord) (h3 : D'.w = D.w)
    (h4 : D'.npd = D.npd) (h5 : D'.prop = D.prop) (E E' : Env K V) (hskip : E'.skip = E.skip) :
    save E' ss' = save E ss := by
  obtain ⟨s, L, g, p, hsD, esave, hgf, hpf⟩ := save_ok S hE hs hst E
  obtain ⟨s', L', g', p', hsD', esave', hgf', hpf'⟩ := save_ok S' hE' hs' hst' E'
  have hnet := same_net hax
  have htok := same_toks hax
  have hG : ∀ n ∈ netSizes D.axs, 1 ≤ n := (io_grid S hE).pos
  rw [hskip, hnet] at hgf' hpf'
  rw [esave, esave', geoFile_unique hG h1 h2 h3 hgf hgf', propFile_unique hG h4 h5 hpf hpf', head_toks hsD, head_toks hsD', hskip,
    htok, h1, h4, hax.length_eq]

/-- Errors of C45: a file of another kind is refused and the object is as before. -/
theorem C45_wrong_file (W : SetUp.World K V) (t : IGA K V) (c : Int) (hc : c ≠ igaClassid) (f : File K) :
    loadHead false W t (.int c :: f) = (.err .wrong, t) := by
  unfold loadHead readClassid
  simp [readInt, Res.bind, check, hc, onRead]

/-- Errors of C45: a file for another dimension is refused, but by then the object is reset: it has lost its set-up, its
geometry and its properties. -/
theorem C45_other_dimension (W : SetUp.World K V) (t : IGA K V) (info dim : Int) (f : File K) (h0 : 1 ≤ t.dim) (h1 : 1 ≤ dim)
    (h3 : dim ≤ 3) (hne : dim ≠ t.dim) :
    loadHead true W t (.int info :: .int dim :: f) = (.err .wrongState, { t with
      setup := false, stage := 0, geo := Geo.none, fixtable := none, grid := none, iter := false }) := by
  unfold loadHead readClassid
  simp only [if_true, onRead, onCall, readInt, SetUp.reset, SetUp.setDim]
  rw [if_neg (by omega), if_pos (by omega)]

/-- Errors of C45: `IGASave` of an object that has a geometry dimension but no control points on some process (after
`IGASetGeometryDim` alone) fails, and leaves a file that ends after the geometry dimension. -/
theorem C45_save_without_points (E : Env K V) (s : IGA K V) (ss : List (IGA K V)) (hst : 2 ≤ s.stage)
    (hl : ∀ s' ∈ s :: ss, s'.layout ≠ none) (hn : s.geo.nsd ≠ 0) (hX : s.geo.X = none) :
    save E (s :: ss) = (.err .wrongState, headToks E.skip s ++ [.int s.geo.nsd]) := by
  obtain ⟨ps, e, he⟩ : ∃ ps, parts ss = .ok ps ∧ True := by
    clear hst hn hX
    unfold parts
    induction ss with
    | nil => exact ⟨[], rfl, trivial⟩
    | cons a ss ih =>
      obtain ⟨ps, e, -⟩ := ih fun s' h => hl s' (by
        rcases List.mem_cons.1 h with h | h
        · simp [h]
        · simp [h])
      obtain ⟨L, hL⟩ := Option.ne_none_iff_exists'.1 (hl a (by simp))
      refine ⟨(L, a.geo) :: ps, ?_, trivial⟩
      unfold mapRes
      rw [hL, e]
      rfl
  obtain ⟨L, hL⟩ := Option.ne_none_iff_exists'.1 (hl s (by simp))
  have e' : parts (s :: ss) = .ok ((L, s.geo) :: ps) := by
    unfold parts at e ⊢
    unfold mapRes
    rw [hL, e]
    rfl
  unfold save
  rw [List.head?_cons]
  dsimp only
  rw [if_neg (by omega), e']
  dsimp only
  unfold saveGeoPart
  rw [if_pos hn]
  have : saveGeometry E.skip E.mem s.geo.nsd.toNat ((L, s.geo) :: ps) = .err .wrongState := by
    unfold saveGeometry mapRes localHomog
    rw [hX]
    rfl
  rw [this]

/-! ### Examples -/

/-- An object after `IGASetUp` on a process with layout and arrays `q`. -/
def exObj (axs : List (Axis ℚ)) (q : Piece ℚ) : IGA ℚ Unit :=
  { SetUp.create (V := Unit) ⟨1, 0, exactGuess2, exactGuess3, fun _ _ _ _ => (), 1, fun _ => 0⟩ with
    dim := axs.length, dof := 1, axes := axs ++ [Ax.create fun _ => 0], layout := some q.1, geo := q.2, stage := 3, setup := true }

theorem exObj_describes (axs : List (Axis ℚ)) (nsd npd : Nat) (coord : List Int → Nat → ℚ) (w : List Int → ℚ)
    (prop : List Int → Nat → ℚ) {ps : List (Piece ℚ)} (h : ∀ q ∈ ps, HasGeometry nsd coord w q ∧ HasProperty npd prop q ∧
      q.2.nsd = nsd ∧ q.2.npd = npd ∧ ((∀ x, w x = 1) → q.2.W = none)) :
    List.Forall₂ (Describes ⟨axs, nsd, coord, w, npd, prop⟩) (ps.map (exObj axs)) (ps.map Prod.fst) := by
  induction ps with
  | nil => exact .nil
  | cons q ps ih =>
    obtain ⟨h1, h2, h3, h4, -⟩ := h q (by simp)
    refine .cons ⟨rfl, ?_, rfl, h3, h4, fun _ => h1, fun _ => h2⟩ (ih fun q hq => h q (by simp [hq]))
    dsimp only [exObj]
    rw [List.take_left' rfl]
    have : ∀ l : List (Axis ℚ), List.Forall₂ SameAxis l l := by
      intro l
      induction l with
      | nil => exact .nil
      | cons a l ih => exact .cons ⟨rfl, rfl, rfl, rfl, rfl, rfl, fun _ _ _ => rfl⟩ ih
    exact this axs

/-- The program that loads: one process. -/
def exEnv : Env ℚ Unit :=
  { size := 1, g2 := exactGuess2, g3 := exactGuess3, kern := fun _ _ _ _ => (), huge := 1, junk := fun _ => 0, mem := fun _ => 0,
    tol := 1/10^13, skip := false }

/-- A new object, then `IGAAxisSetPeriodic` for the first axis. -/
def exTarget : IGA ℚ Unit :=
  (SetUp.axisCall (SetUp.create (exEnv.world 0)) 0 fun ax => Ax.step ax (.setPeriodic true)).2

theorem exTarget_ranks : ∃ Ls, AllRanks exactGuess2 exactGuess3 false 1 [-1,-1] (exAxs.map (copyAxis fun _ => 0)) Ls := by
  have hL : Lay.stage1 exactGuess2 exactGuess3 false 1 0 [-1,-1] (exAxs.map (copyAxis fun _ => 0)) =
    .ok ⟨exAxs.map (copyAxis fun _ => 0), [1,1], [0,0], _⟩ := rfl
  obtain ⟨Ls, h⟩ := allRanks_exists exactGuess2 exactGuess3 false 1 [-1,-1] _ _ 0 (by
    intro ax h
    obtain ⟨Ls, S⟩ := exSetup1 exactGuess2 exactGuess3
    obtain ⟨a, ha, rfl⟩ := List.mem_map.1 h
    exact copy_reached _ (axs_wf S a ha)) hL
  exact ⟨Ls, h⟩

/-- The hypotheses of `C45_round_trip_partial`: written by four processes, read by one, with a zero weight and two
properties per control point. -/
example (coord : List Int → Nat → ℚ) (prop : List Int → Nat → ℚ) :
    ∃ (ss ss' : List (IGA ℚ Unit)) (Ls' : List (Layout ℚ)) (file : File ℚ), ss.length = 4 ∧ save exEnv ss = (.ok (), file) ∧
      load exEnv [exTarget] file = .ok ss' ∧
      List.Forall₂ (Describes ⟨exAxs, 2, coord, fun x => if x = [0,0] then 0 else 2, 2, prop⟩) ss' Ls' ∧ ss'.length = 1 := by
  obtain ⟨Ls, S⟩ := exSetup exactGuess2 exactGuess3
  obtain ⟨ps, hps, h⟩ := net_exists S (by simp) 2 2 coord (fun x => if x = [0,0] then 0 else 2) prop
  have hs := exObj_describes exAxs 2 2 coord _ prop h
  rw [hps] at hs
  obtain ⟨Ls', R⟩ := exTarget_ranks
  obtain ⟨file, e, ss', e', hq⟩ := C45_round_trip_partial (D := ⟨exAxs, 2, coord, _, 2, prop⟩) S (by simp) hs
    (by intro s hs; obtain ⟨q, -, rfl⟩ := List.mem_map.1 hs; exact (by decide : 2 ≤ 3)) (Or.inr ⟨Nat.le_refl 2, Nat.le_succ 2⟩) exEnv exEnv rfl
    (by decide) R (by
      intro ax h
      simp only [exAxs, List.mem_cons, List.not_mem_nil, or_false] at h
      refine ⟨fun _ => ?_, by simp⟩
      rcases h with rfl | rfl <;> decide +kernel) (by simp) (ts := [exTarget]) rfl (by
      intro t ht
      rw [List.mem_singleton] at ht
      subst ht
      refine ⟨Or.inl (by decide), rfl, ?_, rfl, rfl⟩
      intro k ax b h1 h2
      match k with
      | 0 => simp only [exAxs, List.getElem?_cons_zero, Option.some.injEq] at h1; subst h1; exact (Option.some.inj h2) ▸ rfl
      | 1 => simp only [exAxs, List.getElem?_cons_succ, List.getElem?_cons_zero, Option.some.injEq] at h1; subst h1; exact (Option.some.inj h2) ▸ rfl
      | k+2 => simp [exAxs] at h1) []
  rw [List.append_nil] at e'
  refine ⟨_, ss', Ls', file, ?_, e, e', hq.imp fun _ _ h => h.1, ?_⟩
  · have := congrArg List.length hps
    have h4 := S.ranks.1
    rw [List.length_map] at this ⊢
    omega
  · have h4 := R.1
    have := hq.length_eq
    omega

/-- `exAx0` without the periodic flag. -/
def exTwin0 : Axis ℚ := (Ax.step exAx0 (.setPeriodic false)).2

/-- The axes of `exAxs` without the periodic flag. -/
def exTwins : List (Axis ℚ) := [(Ax.setUp exTwin0).2, (Ax.setUp exAx1).2]

theorem exTwin_setup : ∃ Ls, Setup exactGuess2 exactGuess3 false 1 [1,1] [exTwin0, exAx1] exTwins Ls := by
  have hr : ∀ ax ∈ [exTwin0, exAx1], Reached ax := by
    intro ax h
    simp only [List.mem_cons, List.not_mem_nil, or_false] at h
    rcases h with rfl | rfl
    · exact .step _ _ (exAx_reached exAx0 (by simp)) (by decide +kernel)
    · exact exAx_reached exAx1 (by simp)
  have hL : Lay.stage1 exactGuess2 exactGuess3 false 1 0 [1,1] [exTwin0, exAx1] =
    .ok ⟨exTwins, [1,1], [0,0], _⟩ := rfl
  obtain ⟨Ls, h⟩ := allRanks_exists exactGuess2 exactGuess3 false 1 [1,1] _ _ 0 hr hL
  refine ⟨Ls, hr, by simp, rfl, by omega, h, ?_⟩
  intro ax h
  simp only [exTwins, List.mem_cons, List.not_mem_nil, or_false] at h
  refine ⟨fun _ => ?_, by simp⟩
  rcases h with rfl | rfl <;> decide +kernel

theorem exTwin_ranks : ∃ Ls, AllRanks exactGuess2 exactGuess3 false 1 [-1,-1] (exTwins.map (copyAxis fun _ => 0)) Ls := by
  have hL : Lay.stage1 exactGuess2 exactGuess3 false 1 0 [-1,-1] (exTwins.map (copyAxis fun _ => 0)) =
    .ok ⟨exTwins.map (copyAxis fun _ => 0), [1,1], [0,0], _⟩ := rfl
  obtain ⟨Ls, h⟩ := allRanks_exists exactGuess2 exactGuess3 false 1 [-1,-1] _ _ 0 (by
    intro ax h
    obtain ⟨Ls, S⟩ := exTwin_setup
    obtain ⟨a, ha, rfl⟩ := List.mem_map.1 h
    exact copy_reached _ (axs_wf S a ha)) hL
  exact ⟨Ls, h⟩

/-- C45 is false as stated: the file of an object with a periodic direction (6 nodes) loads, into a new object, as one
without (8 nodes). -/
theorem C45_periodic_refuted : ∃ (s s' : IGA ℚ Unit) (L : Layout ℚ) (file : File ℚ),
    Describes ⟨exAxs, 0, fun _ _ => 0, fun _ => 1, 0, fun _ _ => 0⟩ s L ∧ (s.axes.head?.map fun a => (a.periodic, a.nnp)) = some (true, 6) ∧
    save exEnv [s] = (.ok (), file) ∧ load exEnv [SetUp.create (exEnv.world 0)] file = .ok [s'] ∧
    (s'.axes.head?.map fun a => (a.periodic, a.nnp)) = some (false, 8) := by
  obtain ⟨Ls, S⟩ := exSetup1 exactGuess2 exactGuess3
  obtain ⟨Lt, T⟩ := exTwin_setup
  obtain ⟨ps, hps, h⟩ := net_exists S (by simp) 0 0 (fun _ _ => 0) (fun _ => 1) (fun _ _ => 0)
  obtain ⟨pt, hpt, ht⟩ := net_exists T (by simp) 0 0 (fun _ _ => 0) (fun _ => 1) (fun _ _ => 0)
  have hs := exObj_describes exAxs 0 0 _ _ _ h
  have hst := exObj_describes exTwins 0 0 _ _ _ ht
  rw [hps] at hs
  rw [hpt] at hst
  obtain ⟨Ls', R⟩ := exTwin_ranks
  have st : ∀ axs (l : List (Piece ℚ)), ∀ s ∈ l.map (exObj axs), 2 ≤ s.stage := by
    intro axs l s hs; obtain ⟨q, -, rfl⟩ := List.mem_map.1 hs; exact (by decide : 2 ≤ 3)
  obtain ⟨file, e, ss', e', hq⟩ := C45_round_trip_partial (D := ⟨exTwins, 0, _, _, 0, _⟩) T (by simp) hst
    (st _ _) (Or.inl rfl) exEnv exEnv rfl
    (by decide) R (by
      intro ax h
      simp only [exTwins, List.mem_cons, List.not_mem_nil, or_false] at h
      refine ⟨fun _ => ?_, by simp⟩
      rcases h with rfl | rfl <;> decide +kernel) (by simp) (ts := [SetUp.create (exEnv.world 0)]) rfl (by
      intro t ht
      rw [List.mem_singleton] at ht
      subst ht
      refine ⟨Or.inl (by decide), rfl, ?_, rfl, rfl⟩
      intro k ax b h1 h2
      match k with
      | 0 => simp only [exTwins, List.getElem?_cons_zero, Option.some.injEq] at h1; subst h1; exact (Option.some.inj h2) ▸ rfl
      | 1 => simp only [exTwins, List.getElem?_cons_succ, List.getElem?_cons_zero, Option.some.injEq] at h1; subst h1; exact (Option.some.inj h2) ▸ rfl
      | k+2 => simp [exTwins] at h1) []
  have hf := C45_file_contents_partial (D := ⟨exTwins, 0, _, _, 0, _⟩) (D' := ⟨exAxs, 0, _, _, 0, _⟩) T (by simp) hst (st _ _) S (by simp) hs (st _ _)
    (.cons ⟨rfl, rfl, fun _ _ _ => rfl⟩ (.cons ⟨rfl, rfl, fun _ _ _ => rfl⟩ .nil)) rfl rfl rfl rfl rfl exEnv exEnv rfl
  rw [e] at hf
  rw [List.append_nil] at e'
  have l1 : ps.length = 1 := by
    have := congrArg List.length hps
    have h4 := S.ranks.1
    rw [List.length_map] at this
    omega
  obtain ⟨q, rfl⟩ := List.length_eq_one_iff.1 l1
  have l2 : ss'.length = 1 := by
    have h4 := R.1
    have := hq.length_eq
    omega
  obtain ⟨s', rfl⟩ := List.length_eq_one_iff.1 l2
  obtain ⟨L, hsL⟩ : ∃ L, Describes ⟨exAxs, 0, fun _ _ => 0, fun _ => 1, 0, fun _ _ => 0⟩ (exObj exAxs q) L := by
    cases hs with | cons h _ => exact ⟨_, h⟩
  refine ⟨exObj exAxs q, s', L, file, hsL, ?_, hf, e', ?_⟩
  · change some ((Ax.setUp exAx0).2.periodic, (Ax.setUp exAx0).2.nnp) = _
    decide +kernel
  cases hq with
  | cons h _ =>
    have := h.1.axes
    dsimp only [exTwins] at this
    generalize hg : List.take _ s'.axes = l at this
    cases this with
    | @cons _ b _ l h1 _ =>
      have : s'.axes.head? = some b := by
        have : s'.axes = b :: l ++ s'.axes.drop 2 := by rw [← hg]; exact (List.take_append_drop 2 _).symm
        rw [this]; rfl
      rw [this]
      simp only [Option.map_some, h1.periodic, h1.nnp]
      decide +kernel

/-- **C46, dimensions.**  `IGASetGeometryDim` accepts exactly 1 to 3 dimensions, not fewer than the parametric ones; `IGASetPropertyDim` accepts any
number of properties, also none.  Setting the value in force keeps the stored arrays; another value discards the control points and weights (the
properties), and nothing else. -/
theorem C46_dims (dim : Int) (g : SetUp.Geo K) (d : Int) :
    ((setGeometryDim dim g d).isOk = true ↔ (d = 1 ∨ d = 2 ∨ d = 3) ∧ dim ≤ d) ∧
    ((setPropertyDim g d).isOk = true ↔ 0 ≤ d) ∧
    (∀ g', setGeometryDim dim g d = .ok g' → g'.nsd = d ∧ g'.npd = g.npd ∧ g'.A = g.A ∧
      (if g.nsd = d then g' = g else g'.X = none ∧ g'.W = none ∧ g'.rational = false)) ∧
    (∀ g', setPropertyDim g d = .ok g' → g'.npd = d ∧ g'.nsd = g.nsd ∧ g'.X = g.X ∧ g'.W = g.W ∧ g'.rational = g.rational ∧
      (if g.npd = d then g' = g else g'.A = none)) := by
  unfold setGeometryDim setPropertyDim
  refine ⟨?_, ?_, ?_, ?_⟩
  · split_ifs with h1 h2 h3 <;> simp [Res.isOk] <;> omega
  · split_ifs with h1 h2 <;> simp [Res.isOk] <;> omega
  · intro g' h
    split_ifs at h with h1 h2 h3 <;> cases h
    · exact ⟨h3, rfl, rfl, by rw [if_pos h3]⟩
    · exact ⟨rfl, rfl, rfl, by rw [if_neg h3]; exact ⟨rfl, rfl, rfl⟩⟩
  · intro g' h
    split_ifs at h with h1 h2 <;> cases h
    · exact ⟨h2, rfl, rfl, rfl, rfl, by rw [if_pos h2]⟩
    · exact ⟨rfl, rfl, rfl, rfl, rfl, by rw [if_neg h2]⟩

/-- Three properties on a new object are accepted. -/
example : (setPropertyDim (SetUp.Geo.none : SetUp.Geo K) 3).isOk = true := (C46_dims 2 _ 3).2.1.2 (by omega)

end PetIGA.IO
