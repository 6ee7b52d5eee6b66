import Verif.Model.Probe
import Verif.Props.Block
import Verif.Props.BSplineOrder
/-! Property theorems about the probe (C52). -/
set_option linter.unusedSectionVars false
namespace PetIGA.Prb
open PetIGA.Spec PetIGA.Part PetIGA.Lay PetIGA.Ax PetIGA.Grid PetIGA.Asm PetIGA.Blk PetIGA.Elem

variable {K V : Type} [Field K] [LinearOrder K] [IsStrictOrderedRing K]

/-! ### Specification -/

/-- The interval `k` of the knots of a direction is the one used for the coordinate `u`: a non-empty interval of the
domain, the one containing `u` if `u` is in the domain (at the right end the last one), and the first or the last one
for coordinates outside. -/
structure SpanOf (ax : Axis K) (u : K) (k : Int) : Prop where
  elem : IsElement ax.p ax.m ax.U k
  inside : ax.U ax.p ≤ u → u < ax.U (ax.m - ax.p) → ax.U k ≤ u ∧ u < ax.U (k+1)
  left : u < ax.U ax.p → k = ax.p
  right : ax.U (ax.m - ax.p) ≤ u → k = ax.m - ax.p - 1

/-- The same for all directions. -/
inductive PointSpans : List (Axis K) → List K → List Int → Prop
  | nil : PointSpans [] [] []
  | cons {ax : Axis K} {u : K} {k : Int} {axs us ks} : SpanOf ax u k → PointSpans axs us ks → PointSpans (ax :: axs) (u :: us) (k :: ks)

/-- The point is in the parametric domain. -/
def InDomain (axs : List (Axis K)) (us : List K) : Prop :=
  List.Forall₂ (fun (ax : Axis K) u => ax.U ax.p ≤ u ∧ u ≤ ax.U (ax.m - ax.p)) axs us

/-- The array stores `dof` values per index of the block, index by index, the first direction fastest. -/
def Stores (start width : List Int) (dof : Nat) (arr : List V) (f : List Int → Nat → V) : Prop :=
  ∀ y (c : Nat), InBlock start width y → c < dof → arr[(flat width (rel start y) * dof + c).toNat]? = some (f y c)

/-- The values at the `∏(p+1)` functions that are not zero on the intervals `ks`, function after function. -/
def closureVals (axs : List (Axis K)) (ks : List Int) (dof : Nat) (f : List Int → Nat → V) : List V :=
  (indices (nens axs)).flatMap fun t => (List.range dof).map fun (c : Nat) =>
    f (plus (List.zipWith (fun k (ax : Axis K) => k - ax.p) ks axs) t) c

/-! ### One process -/

theorem off_false {ds : List (PDir K)} {ks : List Int} (hl : ds.length = ks.length) (ho : off ds ks = false) :
    List.Forall₂ (fun d k => offDir d k = false) ds ks := by
  induction ds generalizing ks with
  | nil => cases ks with
    | nil => exact .nil
    | cons => simp at hl
  | cons d ds ih => cases ks with
    | nil => simp at hl
    | cons k ks =>
      unfold off at ho ih
      simp only [List.zipWith_cons_cons, List.any_cons, id, Bool.or_eq_false_iff] at ho
      exact .cons ho.1 (ih (by simpa using hl) ho.2)

theorem offDir_false {d : PDir K} {k : Int} : offDir d k = false ↔ d.s ≤ k - d.p ∧ k < d.s + d.w := by
  unfold offDir
  rw [decide_eq_false_iff_not]
  constructor <;> intro h <;> omega

/-- The directions of the probe on a process. -/
def pdirs (axs : List (Axis K)) (ds : List Dir) : List (PDir K) := List.zipWith pdir axs ds

/-- The functions of the closure are in the ghosted box. -/
theorem closure_in {ax : List (Axis K)} {ds : List Dir} {ks t : List Int} (hl : ax.length = ds.length) (hk : ax.length = ks.length)
    (ho : off (pdirs ax ds) ks = false) (ht : InBox (nens ax) t) :
    InBlock (ds.map Dir.geomGstart) (ds.map Dir.geomGwidth) (plus (List.zipWith (fun k (ax : Axis K) => k - ax.p) ks ax) t) := by
  induction ax generalizing ds ks t with
  | nil =>
    cases ds with
    | cons => simp at hl
    | nil => cases ks with
      | cons => simp at hk
      | nil => cases ht; exact .nil
  | cons a ax ih =>
    cases ds with
    | nil => simp at hl
    | cons d ds => cases ks with
      | nil => simp at hk
      | cons k ks =>
        unfold nens at ht
        rw [List.map_cons] at ht
        cases ht with
        | @cons _ j _ js c1 c2 =>
          unfold off pdirs at ho
          simp only [List.zipWith_cons_cons, List.any_cons, id, Bool.or_eq_false_iff] at ho
          have h1 := offDir_false.1 ho.1
          unfold plus
          simp only [List.zipWith_cons_cons, List.map_cons]
          refine .cons ?_ (ih (by simpa using hl) (by simpa using hk) ho.2 c2)
          dsimp only [pdir] at h1
          omega

theorem copy_ok (map : List Int) (dof : Nat) (arr : List V) {β : Type} (l : List β) (pos : β → Int) (f : β → Nat → V)
    (hm : map = l.map pos) (h : ∀ b ∈ l, ∀ c, c < dof → 0 ≤ pos b ∧ arr[(pos b * dof + c).toNat]? = some (f b c)) :
    copy map (dof, arr) = .ok (l.flatMap fun b => (List.range dof).map (f b)) := by
  subst hm
  unfold copy
  rw [List.map_map]
  refine collect_ok _ _ l fun b hb => ?_
  dsimp only [Function.comp]
  rw [collect_ok _ (fun c => [f b c])]
  · congr 1
    induction List.range dof with
    | nil => rfl
    | cons c cs ih => rw [List.flatMap_cons, ih]; rfl
  · intro c hc
    obtain ⟨h0, h1⟩ := h b hb c (List.mem_range.1 hc)
    have : 0 ≤ pos b * (dof:Int) := Int.mul_nonneg h0 (by omega)
    unfold read
    rw [if_neg (by omega), show (c:Int) + pos b * dof = pos b * dof + c by ring, h1]
    rfl

theorem cdirs_maps {axs : List (Axis K)} (hp : ∀ ax ∈ axs, 0 ≤ ax.p) : ∀ {ds : List Dir} {ks : List Int}, axs.length = ds.length →
    axs.length = ks.length →
    (List.zipWith cdirOf (pdirs axs ds) ks).length = axs.length ∧
    (List.zipWith cdirOf (pdirs axs ds) ks).map (fun d => (d.offset, (d.nen:Int))) =
      List.zipWith Prod.mk (List.zipWith (fun k (ax : Axis K) => k - ax.p) ks axs) (nens axs) ∧
    (List.zipWith cdirOf (pdirs axs ds) ks).map CDir.gwidth = ds.map Dir.geomGwidth ∧
    (List.zipWith cdirOf (pdirs axs ds) ks).map CDir.gstart = ds.map Dir.geomGstart := by
  induction axs with
  | nil =>
    intro ds ks h1 h2
    cases ds with
    | cons => simp at h1
    | nil => simp [pdirs, nens]
  | cons a axs ih =>
    intro ds ks h1 h2
    cases ds with
    | nil => simp at h1
    | cons d ds => cases ks with
      | nil => simp at h2
      | cons k ks =>
        obtain ⟨i1, i2, i3, i4⟩ := ih (fun a ha => hp a (by simp [ha])) (ds := ds) (ks := ks) (by simpa using h1) (by simpa using h2)
        unfold pdirs nens at *
        simp only [List.zipWith_cons_cons, List.map_cons, List.length_cons, i1, i2, i3, i4]
        have := hp a (by simp)
        refine ⟨trivial, ?_, rfl, rfl⟩
        congr 1
        dsimp only [cdirOf, pdir]
        congr 1
        omega

theorem box_zip : ∀ {f n : List Int}, f.length = n.length → (∀ x ∈ n, 0 ≤ x) → box (List.zipWith Prod.mk f n) = (indices n).map fun t => plus f t
  | [], [], _, _ => rfl
  | [], _ :: _, h, _ => by simp at h
  | _ :: _, [], h, _ => by simp at h
  | a :: f, b :: n, h, hn => by
    simp only [List.zipWith_cons_cons, box, indices]
    rw [box_zip (f := f) (n := n) (by simpa using h) fun x hx => hn x (by simp [hx]), List.map_flatMap, List.flatMap_map]
    congr 1
    funext is
    rw [List.map_map]
    rfl

/-- On a process that has the closure in its ghosted box, the copy is made without reading outside the arrays and has
the values at the functions that are not zero on the interval of the point. -/
theorem local_ok {axs : List (Axis K)} {ds : List Dir} {us : List K} {ks : List Int} (hp : ∀ ax ∈ axs, 0 ≤ ax.p)
    (h1 : 1 ≤ axs.length) (h3 : axs.length ≤ 3) (hl : axs.length = ds.length) (hk : axs.length = ks.length)
    (debug : Bool) (hdom : debug = true → (List.zipWith inRange (pdirs axs ds) us).any not = false)
    (hs : spans (pdirs axs ds) us = .ok ks) (specs : List (Nat × (List Int → Nat → V))) (arrays : List (Nat × List V)) (old : List (List V))
    (hst : List.Forall₂ (fun (a : Nat × List V) s => a.1 = s.1 ∧ Stores (ds.map Dir.geomGstart) (ds.map Dir.geomGwidth) s.1 a.2 s.2) arrays specs) :
    localPoint debug (pdirs axs ds) arrays old us = .ok (off (pdirs axs ds) ks,
      if off (pdirs axs ds) ks then old else specs.map fun s => closureVals axs ks s.1 s.2) := by
  unfold localPoint
  rw [if_neg (by rintro ⟨a, b⟩; rw [hdom a] at b; simp at b), hs]
  show (if _ then _ else _) = _
  cases ho : off (pdirs axs ds) ks with
  | true => rfl
  | false =>
    simp only [Bool.false_eq_true, if_false]
    obtain ⟨m0, m1, m2, m3⟩ := cdirs_maps hp hl hk
    rw [mapping_eq _ (by omega) (by omega), m1, m2, m3, box_zip]
    · show (Blk.sequence _).bind _ = _
      have : ∀ (arrays : List (Nat × List V)) (specs : List (Nat × (List Int → Nat → V))),
          List.Forall₂ (fun (a : Nat × List V) s => a.1 = s.1 ∧ Stores (ds.map Dir.geomGstart) (ds.map Dir.geomGwidth) s.1 a.2 s.2) arrays specs →
          Blk.sequence (arrays.map (copy (((indices (nens axs)).map fun t => plus (List.zipWith (fun k (ax : Axis K) => k - ax.p) ks axs) t).map fun y =>
            flat (ds.map Dir.geomGwidth) (rel (ds.map Dir.geomGstart) y)))) = .ok (specs.map fun s => closureVals axs ks s.1 s.2) := by
        intro arrays specs h
        induction h with
        | nil => rfl
        | @cons a s as ss g1 g2 ih =>
          obtain ⟨n, arr⟩ := a
          obtain ⟨n', f⟩ := s
          obtain ⟨rfl, g1⟩ := g1
          rw [List.map_cons, Blk.sequence, ih, copy_ok _ _ _ (indices (nens axs))
            (fun t => flat (ds.map Dir.geomGwidth) (rel (ds.map Dir.geomGstart) (plus (List.zipWith (fun k (ax : Axis K) => k - ax.p) ks axs) t)))
            (fun t => f (plus (List.zipWith (fun k (ax : Axis K) => k - ax.p) ks axs) t))]
          · rfl
          · rw [List.map_map]; rfl
          · intro t ht c hc
            have := closure_in hl hk ho ((mem_indices _ _).1 ht)
            exact ⟨(flat_range (rel_inBox this)).1, g1 _ _ this hc⟩
      rw [this arrays specs hst]
      rfl
    · simp [nens, ← hk]
    · intro x hx
      unfold nens at hx
      rw [List.mem_map] at hx
      obtain ⟨a, ha, rfl⟩ := hx
      have := hp a ha
      omega

/-! ### The processes together -/

theorem foldl_max (l : List Int) : ∀ a : Int, a ≤ l.foldl max a ∧ (l.foldl max a = a ∨ l.foldl max a ∈ l) ∧ ∀ x ∈ l, x ≤ l.foldl max a := by
  induction l with
  | nil => intro a; simp
  | cons b l ih =>
    intro a
    obtain ⟨i1, i2, i3⟩ := ih (max a b)
    rw [List.foldl_cons]
    refine ⟨le_trans (le_max_left _ _) i1, ?_, ?_⟩
    · rcases i2 with h | h
      · rcases max_choice a b with h' | h'
        · left; rw [h, h']
        · right; rw [h, h']; simp
      · right; simp [h]
    · intro x hx
      rcases List.mem_cons.1 hx with rfl | hx
      · exact le_trans (le_max_right _ _) i1
      · exact i3 x hx

theorem root_ok {offs : List Bool} {r : Nat} (h : offs[r]? = some false) :
    0 ≤ root offs ∧ offs[(root offs).toNat]? = some false := by
  unfold root
  obtain ⟨i1, i2, i3⟩ := foldl_max ((offs.zipIdx.filter fun x => !x.1).map fun x => (x.2 : Int)) (-1)
  have hr : (r:Int) ∈ (offs.zipIdx.filter fun x => !x.1).map fun x => (x.2 : Int) := by
    rw [List.mem_map]
    refine ⟨(false, r), ?_, rfl⟩
    rw [List.mem_filter]
    exact ⟨List.mem_zipIdx_iff_getElem?.2 h, rfl⟩
  have := i3 _ hr
  rcases i2 with e | e
  · omega
  · refine ⟨by omega, ?_⟩
    rw [List.mem_map] at e
    obtain ⟨⟨b, q⟩, hq, e⟩ := e
    rw [List.mem_filter] at hq
    rw [← e]
    have := List.mem_zipIdx_iff_getElem?.1 hq.1
    have hb : b = false := by simpa using hq.2
    subst hb
    simpa using this

/-- The probes of all processes: process `r` reads the arrays `arr r` and its copies contain `old r`. -/
def probes (Ls : List (Layout K)) (arr : Nat → List (Nat × List V)) (old : Nat → List (List V)) : List (Proc K V) :=
  Ls.zipIdx.map fun Lr => ⟨pdirs Lr.1.axes Lr.1.dir, arr Lr.2, old Lr.2⟩

variable {g2 : Guess2} {g3 : Guess3} {colloc : Bool} {size : Int} {procs : List Int} {axes axs : List (Axis K)}
  {Ls : List (Layout K)}

theorem setup_len (S : Setup g2 g3 colloc size procs axes axs Ls) : 1 ≤ axs.length ∧ axs.length ≤ 3 := by
  rw [setUpAxes_length S.set]; exact S.dim

theorem setup_wf (S : Setup g2 g3 colloc size procs axes axs Ls) : ∀ ax ∈ axs, WF ax := by
  have hlen := S.ranks.1
  have h1 := S.nonempty
  have h0 : Ls[0]? = some Ls[0] := List.getElem?_eq_getElem (by omega)
  have h := S.ranks.2 0 _ h0
  rw [← stage1_axes h S.set]
  exact (stage1_all S.reached h).1

/-- What the layout of a direction provides for the probe. -/
structure DirP (colloc : Bool) (ax : Axis K) (d : Dir) : Prop where
  size : d.geomSize = ax.m - ax.p
  geometry : ∀ e, d.elemStart ≤ e → e < d.elemStart + d.elemWidth →
    ∃ k, spanOf colloc ax e = .ok k ∧ d.geomGstart ≤ k - ax.p ∧ k < d.geomGstart + d.geomGwidth
  range : 0 ≤ d.geomGstart ∧ 0 ≤ d.geomGwidth ∧ d.geomGstart + d.geomGwidth ≤ ax.m - ax.p
  gstart : d.geomGstart = d.nodeGstart + shiftOf colloc ax
  gwidth : (colloc = false ∨ ax.periodic = false) → d.geomGwidth = d.nodeGwidth

theorem dirP {ax : Axis K} {P r : Int} (h : WF ax) (hc : Condition colloc ax) (hP : 1 ≤ P)
    (hN : P ≤ gridSize colloc ax) (h0 : 0 ≤ r) (h1 : r < P) : DirP colloc ax (dirAt colloc ax P r) := by
  have hd := dirOK' colloc ax P r h hc hP hN h0 h1
  obtain ⟨n1, n2, _⟩ := nnp_bounds h
  have hp := h.legal.degree
  have hge : ∀ e, (dirAt colloc ax P r).elemStart ≤ e → e < (dirAt colloc ax P r).elemStart + (dirAt colloc ax P r).elemWidth →
    ∃ k, spanOf colloc ax e = .ok k ∧ (dirAt colloc ax P r).geomGstart ≤ k - ax.p ∧ k < (dirAt colloc ax P r).geomGstart + (dirAt colloc ax P r).geomGwidth := by
    intro e a b
    obtain ⟨k, hk, hcl⟩ := hd.ok.ghost.geometry e a b
    refine ⟨k, ?_, (hcl (k - ax.p) (by omega) (by omega)).1, (hcl k (by omega) (by omega)).2⟩
    have hsh : (dirAt colloc ax P r).nodeShift = shiftOf colloc ax := hd.ok.shift
    unfold spanOf
    rw [← hsh]
    exact hk
  refine ⟨?_, hge, ?_, ?_, ?_⟩
  · cases colloc
    · have := (hc.1 rfl).2
      show sp ax (ax.nel - 1) + 1 = _
      rw [sp_last h.toPreWF (by have : gridSize false ax = ax.nel := rfl; omega) this]
      ring
    · show (colDir ax P r).geomSize = _
      unfold colDir
      dsimp only
      ring
  · obtain ⟨a, b⟩ := hd.ok.ghost.geomRange
    obtain ⟨i1, i2, i3⟩ := hd.inside
    obtain ⟨k, -, c, d⟩ := hge (dirAt colloc ax P r).elemStart (le_refl _) (by omega)
    exact ⟨a, by omega, b⟩
  · cases colloc
    · show (galDir ax P r).geomGstart = (galDir ax P r).nodeGstart + 0
      rw [add_zero]; rfl
    · show (colDir ax P r).geomGstart = (colDir ax P r).nodeGstart + (ax.m - ax.p - ax.nnp) / 2
      rw [← tdiv_shift h]; rfl
  · cases colloc
    · intro _; rfl
    · intro hper
      have hper : ax.periodic = false := by simpa using hper
      have hnn := (nnp_bounds h).2.2.1 hper
      obtain ⟨G1, G2⟩ := gsp_spec h.toPreWF
      obtain ⟨s1, s2, s3⟩ := shift_bounds h
      obtain ⟨a, b, c, d, e⟩ := bal_range (N := ax.nnp) hP hN h0 h1
      show (colDir ax P r).geomGwidth = (colDir ax P r).nodeGwidth
      unfold colDir
      dsimp only
      split_ifs with hr
      · have hs0 : Int.tdiv (ax.m - ax.p - 1 + 1 - ax.nnp) 2 = 0 := by omega
        rw [hs0]
        have he := e hr
        obtain ⟨-, -, q3, q4, -⟩ := G1 ((dist1D P r ax.nnp).2 + (dist1D P r ax.nnp).1 - 1 + 0) (by omega) (by omega)
        omega
      · rfl

/-- The search finds an interval, the same on all processes. -/
theorem gal_span {ax : Axis K} (h : WF ax) (hc : ax.U ax.p < ax.U (ax.p+1) ∧ ax.U (ax.m-ax.p-1) < ax.U (ax.m-ax.p)) (u : K) :
    ∃ k, SpanOf ax u k ∧ ∀ d, DirP colloc ax d → span (pdir ax d) u = .ok k := by
  have hp := h.legal.degree
  have hm := h.legal.enough
  obtain ⟨c1, c2⟩ := hc
  obtain ⟨k, e, a, b, c, d⟩ := C10_find_span_element_partial (ax.m - ax.p - 1) ax.p ax.U u (ax.m + 1).toNat
    (by rw [show ax.m - ax.p - 1 + ax.p + 1 = ax.m by ring]; exact h.legal.sorted) (by omega) (by omega) (by omega) c1
    (by rw [show ax.m - ax.p - 1 + 1 = ax.m - ax.p by ring]; exact c2)
  rw [show ax.m - ax.p - 1 + 1 = ax.m - ax.p by ring] at b d
  rw [show ax.m - ax.p - 1 + ax.p + 1 = ax.m by ring] at a
  refine ⟨k, ⟨a, b, c, d⟩, ?_⟩
  intro d hd
  unfold span pdir
  dsimp only
  rw [hd.size, show ax.m - ax.p + ax.p + 1 = ax.m + 1 by ring, e]
  rfl

theorem gal_spans {axs : List (Axis K)} (hw : ∀ ax ∈ axs, WF ax)
    (hc : ∀ ax ∈ axs, ax.U ax.p < ax.U (ax.p+1) ∧ ax.U (ax.m-ax.p-1) < ax.U (ax.m-ax.p)) : ∀ {us : List K}, us.length = axs.length →
    ∃ ks, PointSpans axs us ks ∧ ∀ ds, List.Forall₂ (DirP colloc) axs ds → spans (pdirs axs ds) us = .ok ks := by
  induction axs with
  | nil =>
    intro us hu
    cases us with
    | cons => simp at hu
    | nil =>
      refine ⟨[], .nil, ?_⟩
      intro ds h
      cases h
      rfl
  | cons ax axs ih =>
    intro us hu
    cases us with
    | nil => simp at hu
    | cons u us =>
      obtain ⟨ks, h1, h2⟩ := ih (fun a ha => hw a (by simp [ha])) (fun a ha => hc a (by simp [ha])) (us := us) (by simpa using hu)
      obtain ⟨k, h3, h4⟩ := gal_span (colloc := colloc) (hw ax (by simp)) (hc ax (by simp)) u
      refine ⟨k :: ks, .cons h3 h1, ?_⟩
      intro ds h
      cases h with
      | cons a b =>
        unfold pdirs
        rw [List.zipWith_cons_cons, spans, h4 _ a]
        show (spans (pdirs _ _) _).bind _ = _
        rw [h2 _ b]
        rfl

theorem spans_len {axs : List (Axis K)} {us : List K} {ks : List Int} (h : PointSpans axs us ks) : axs.length = ks.length ∧ axs.length = us.length := by
  induction h with
  | nil => exact ⟨rfl, rfl⟩
  | cons _ _ ih => simp [ih.1, ← ih.2]

/-- The element of the intervals. -/
theorem elem_of {axs : List (Axis K)} (hw : ∀ ax ∈ axs, WF ax) {us : List K} {ks : List Int} (h : PointSpans axs us ks) :
    ∃ e, InBox (axs.map Axis.nel) e ∧ List.Forall₂ (fun (ax : Axis K) (ke : Int × Int) => spanOf false ax ke.2 = .ok ke.1) axs (List.zip ks e) := by
  induction h with
  | nil => exact ⟨[], .nil, .nil⟩
  | @cons ax u k axs us ks h1 h2 ih =>
    obtain ⟨e, a, b⟩ := ih fun a ha => hw a (by simp [ha])
    obtain ⟨i, i0, i1, i2⟩ := mem_sp (hw ax (by simp)).toPreWF h1.elem
    refine ⟨i :: e, .cons ⟨i0, i1⟩ a, .cons ?_ b⟩
    show spanOf false ax i = _
    unfold spanOf
    rw [if_neg (by simp), spanAt_ok (hw ax (by simp)).toPreWF i0 i1, i2]

/-- If every interval is the interval of an element (of a collocation point), some process has the closure. -/
theorem found (S : Setup g2 g3 colloc size procs axes axs Ls) {ks x : List Int} (hx : InBox (axs.map (gridSize colloc)) x)
    (hk : List.Forall₂ (fun (ax : Axis K) (ke : Int × Int) => spanOf colloc ax ke.2 = .ok ke.1) axs (List.zip ks x))
    (hl : axs.length = ks.length) :
    ∃ (r : Nat) (L : Layout K), Ls[r]? = some L ∧ off (pdirs L.axes L.dir) ks = false := by
  have hlen := S.ranks.1
  have hne := S.nonempty
  have h0 : Ls[0]? = some Ls[0] := List.getElem?_eq_getElem (by omega)
  have hst := S.ranks.2 0 _ h0
  have hax := stage1_axes hst S.set
  obtain ⟨-, T⟩ := Lay.lift S.reached hst Dir.elemStart Dir.elemWidth (gridSize colloc)
    (fun ax _ P hP hN => elem_tiles colloc hP hN)
  rw [hax] at T
  obtain ⟨r, ⟨r0, r1, Lr, hLr, hin⟩, -⟩ := T x hx
  have hr : Ls[r.toNat]? = some Ls[r.toNat] := List.getElem?_eq_getElem (by omega)
  have hh := S.ranks.2 _ _ hr
  rw [Int.toNat_of_nonneg r0, hLr] at hh
  simp only [Res.ok.injEq] at hh
  refine ⟨r.toNat, Lr, by rw [hr, hh], ?_⟩
  have hd := setup_dirs S hr (R := DirP colloc) (fun ax P r a b c d e f => dirP a b c d e f)
  rw [← hh] at hd
  rw [stage1_axes hLr S.set]
  clear hax hh hr hst T hLr h0 r0 r1 hx S
  generalize Lr.dir = ds at hd hin
  unfold off pdirs
  induction hd generalizing ks x with
  | nil => rfl
  | @cons ax d axs ds h1 h2 ih =>
    simp only [List.map_cons] at hin
    cases hin with
    | @cons _ _ i _ _ is b1 b2 =>
      cases ks with
      | nil => simp at hl
      | cons k ks =>
        rw [List.zip_cons_cons] at hk
        cases hk with
        | cons c1 c2 =>
          simp only [List.zipWith_cons_cons, List.any_cons, id, Bool.or_eq_false_iff]
          refine ⟨?_, ih c2 (by simpa using hl) b2⟩
          obtain ⟨k', q1, q2, q3⟩ := h1.geometry i b1.1 b1.2
          dsimp only at c1
          rw [c1] at q1
          simp only [Res.ok.injEq] at q1
          subst q1
          exact offDir_false.2 ⟨q2, q3⟩

/-- The common part of the theorems below: the same intervals on all processes, and a process that has the closure. -/
theorem setPoint_ok (S : Setup g2 g3 colloc size procs axes axs Ls) {us : List K} {ks : List Int} (hl : axs.length = ks.length)
    (debug : Bool) (hu : us.length = axs.length) (hdom : debug = true → InDomain axs us)
    (hsp : ∀ ds, List.Forall₂ (DirP colloc) axs ds → spans (pdirs axs ds) us = .ok ks)
    (specs : List (Nat × (List Int → Nat → V))) (arr : Nat → List (Nat × List V)) (old : Nat → List (List V))
    (hst : ∀ (r : Nat) (L : Layout K), Ls[r]? = some L →
      List.Forall₂ (fun (a : Nat × List V) s => a.1 = s.1 ∧ Stores (L.dir.map Dir.geomGstart) (L.dir.map Dir.geomGwidth) s.1 a.2 s.2) (arr r) specs)
    (hfound : ∃ (r : Nat) (L : Layout K), Ls[r]? = some L ∧ off (pdirs L.axes L.dir) ks = false) :
    setPoint debug false (probes Ls arr old) us = .ok (Ls.zipIdx.map fun Lr => (off (pdirs Lr.1.axes Lr.1.dir) ks,
      if off (pdirs Lr.1.axes Lr.1.dir) ks then old Lr.2 else specs.map fun s => closureVals axs ks s.1 s.2)) ∧
    setPoint debug true (probes Ls arr old) us = .ok (Ls.map fun L => (off (pdirs L.axes L.dir) ks,
      specs.map fun s => closureVals axs ks s.1 s.2)) := by
  have hw := setup_wf S
  obtain ⟨l1, l3⟩ := setup_len S
  have key : Blk.sequence ((probes Ls arr old).map fun p => localPoint debug p.dirs p.arrays p.old us) =
      .ok (Ls.zipIdx.map fun Lr => (off (pdirs Lr.1.axes Lr.1.dir) ks,
        if off (pdirs Lr.1.axes Lr.1.dir) ks then old Lr.2 else specs.map fun s => closureVals axs ks s.1 s.2)) := by
    unfold probes
    rw [List.map_map]
    refine Blk.sequence_ok _ _ _ ?_
    rintro ⟨L, r⟩ hr
    have hr := List.mem_zipIdx_iff_getElem?.1 hr
    have hd := setup_dirs S hr (R := DirP colloc) (fun ax P r a b c d e f => dirP a b c d e f)
    obtain ⟨-, hax, -, -⟩ := S.get hr
    dsimp only [Function.comp]
    rw [hax]
    refine local_ok (fun a ha => by have := (hw a ha).legal.degree; omega) l1 l3 hd.length_eq hl debug ?_ (hsp _ hd) specs (arr r) (old r) (hst r L hr)
    intro hdb
    have := hdom hdb
    clear hst hsp hfound hl hu hw l1 l3 S hr hax
    unfold pdirs InDomain at *
    dsimp only at hd
    generalize L.dir = ds at hd
    induction hd generalizing us with
    | nil => rfl
    | cons h1 h2 ih =>
      cases this with
      | cons b1 b2 =>
        simp only [List.zipWith_cons_cons, List.any_cons, Bool.or_eq_false_iff]
        refine ⟨?_, ih (fun _ => b2) b2⟩
        unfold inRange pdir
        dsimp only
        rw [h1.size]
        simp [b1.1, b1.2]
  constructor
  · unfold setPoint
    rw [key]
    rfl
  · unfold setPoint
    rw [key]
    dsimp only [Res.bind]
    rw [if_pos rfl]
    obtain ⟨r, L, hr, ho⟩ := hfound
    have hoffs : (List.map Prod.fst (Ls.zipIdx.map fun Lr => (off (pdirs Lr.1.axes Lr.1.dir) ks,
        if off (pdirs Lr.1.axes Lr.1.dir) ks then old Lr.2 else specs.map fun s => closureVals axs ks s.1 s.2))) =
        Ls.map fun L => off (pdirs L.axes L.dir) ks := by
      rw [List.map_map]
      conv_rhs => rw [← List.zipIdx_map_fst 0 Ls, List.map_map]
      rfl
    have hroot := root_ok (offs := Ls.map fun L => off (pdirs L.axes L.dir) ks) (r := r) (by rw [List.getElem?_map, hr]; simp [ho])
    rw [hoffs, if_neg (by omega)]
    obtain ⟨r0, r1⟩ := hroot
    rw [List.getElem?_map] at r1
    generalize root (List.map (fun L => off (pdirs L.axes L.dir) ks) Ls) = q at r0 r1
    cases hq : Ls[q.toNat]? with
    | none => rw [hq] at r1; simp at r1
    | some L' =>
      rw [hq] at r1
      simp only [Option.map_some, Option.some.injEq] at r1
      rw [List.getElem?_map, List.getElem?_zipIdx, hq]
      simp only [Option.map_some, r1, Res.ofOption_some, Res.bind, List.map_map, Bool.false_eq_true, if_false, Res.ok.injEq]
      conv_rhs => rw [← List.zipIdx_map_fst 0 Ls, List.map_map]
      rfl

/-! ### C52 -/

/-- The arrays of every process store, on its ghosted box of control points, the values `specs` (number of values per
control point, value of every component at every control point). -/
def AllStore (Ls : List (Layout K)) (arr : Nat → List (Nat × List V)) (specs : List (Nat × (List Int → Nat → V))) : Prop :=
  ∀ (r : Nat) (L : Layout K), Ls[r]? = some L →
    List.Forall₂ (fun (a : Nat × List V) s => a.1 = s.1 ∧ Stores (L.dir.map Dir.geomGstart) (L.dir.map Dir.geomGwidth) s.1 a.2 s.2) (arr r) specs

/-- **C52**, collective probe.  For every point (of the domain, in a build with error checking), after any successful
setup, the collective probe succeeds, and every process obtains the values at the functions that are not zero on the
intervals containing the point, whatever was copied before. -/
theorem C52_collective (S : Setup g2 g3 false size procs axes axs Ls) {us : List K} (hu : us.length = axs.length) (debug : Bool)
    (hdom : debug = true → InDomain axs us) (specs : List (Nat × (List Int → Nat → V))) (arr : Nat → List (Nat × List V))
    (old : Nat → List (List V)) (hst : AllStore Ls arr specs) :
    ∃ ks, PointSpans axs us ks ∧ ∃ outs, setPoint debug true (probes Ls arr old) us = .ok outs ∧ outs.length = Ls.length ∧
      ∀ o ∈ outs, o.2 = specs.map fun s => closureVals axs ks s.1 s.2 := by
  obtain ⟨ks, h1, h2⟩ := gal_spans (colloc := false) (setup_wf S) (fun ax ha => (S.cond ax ha).1 rfl) hu
  obtain ⟨e, e1, e2⟩ := elem_of (setup_wf S) h1
  refine ⟨ks, h1, _, (setPoint_ok S (spans_len h1).1 debug hu hdom h2 specs arr old hst (found S e1 e2 (spans_len h1).1)).2, by simp, ?_⟩
  intro o ho
  rw [List.mem_map] at ho
  obtain ⟨L, -, rfl⟩ := ho
  rfl

/-- **C52**, the probe that is not collective: it succeeds on every process; a process either has the values, or reports
that it does not (`offprocess`) and leaves its copies alone; at least one process has them, and a single process always
does. -/
theorem C52_independent (S : Setup g2 g3 false size procs axes axs Ls) {us : List K} (hu : us.length = axs.length) (debug : Bool)
    (hdom : debug = true → InDomain axs us) (specs : List (Nat × (List Int → Nat → V))) (arr : Nat → List (Nat × List V))
    (old : Nat → List (List V)) (hst : AllStore Ls arr specs) :
    ∃ ks, PointSpans axs us ks ∧ ∃ outs, setPoint debug false (probes Ls arr old) us = .ok outs ∧ outs.length = Ls.length ∧
      (∀ (r : Nat) o, outs[r]? = some o → (o.1 = false → o.2 = specs.map fun s => closureVals axs ks s.1 s.2) ∧ (o.1 = true → o.2 = old r)) ∧
      (∃ o ∈ outs, o.1 = false) ∧ (size = 1 → ∀ o ∈ outs, o.1 = false) := by
  obtain ⟨ks, h1, h2⟩ := gal_spans (colloc := false) (setup_wf S) (fun ax ha => (S.cond ax ha).1 rfl) hu
  obtain ⟨e, e1, e2⟩ := elem_of (setup_wf S) h1
  have hf := found S e1 e2 (spans_len h1).1
  have hex : ∃ o ∈ (Ls.zipIdx.map fun Lr => (off (pdirs Lr.1.axes Lr.1.dir) ks,
      if off (pdirs Lr.1.axes Lr.1.dir) ks then old Lr.2 else specs.map fun s => closureVals axs ks s.1 s.2)), o.1 = false := by
    obtain ⟨r, L, hr, ho⟩ := hf
    exact ⟨_, List.mem_map.2 ⟨(L, r), List.mem_zipIdx_iff_getElem?.2 hr, rfl⟩, ho⟩
  refine ⟨ks, h1, _, (setPoint_ok S (spans_len h1).1 debug hu hdom h2 specs arr old hst hf).1, by simp, ?_, hex, ?_⟩
  · intro r o ho
    rw [List.getElem?_map, List.getElem?_zipIdx] at ho
    cases hr : Ls[r]? with
    | none => rw [hr] at ho; simp at ho
    | some L =>
      rw [hr] at ho
      simp only [Option.map_some, Option.some.injEq, zero_add] at ho
      subst ho
      dsimp only
      constructor <;> intro h <;> simp [h]
  · intro h1
    have hlen := S.ranks.1
    obtain ⟨o, ho, hf⟩ := hex
    intro o' ho'
    generalize hz : (Ls.zipIdx.map fun Lr => (off (pdirs Lr.1.axes Lr.1.dir) ks,
      if off (pdirs Lr.1.axes Lr.1.dir) ks then old Lr.2 else specs.map fun s => closureVals axs ks s.1 s.2)) = z at ho ho'
    have : z.length = 1 := by rw [← hz]; simp; omega
    obtain ⟨a, rfl⟩ := List.length_eq_one_iff.1 this
    rw [List.mem_singleton] at ho ho'
    rw [ho', ← ho, hf]

/-- The local array of a vector on process `r` (see C27). -/
def localArray (Ls : List (Layout K)) (dof : Nat) (gvec : Int → V) (junk : Nat × Int → V) (r : Nat) (L : Layout K) : List V :=
  (List.range ((prod (L.dir.map Dir.nodeGwidth)).toNat * dof)).map fun (k : Nat) =>
    globalToLocal (world (appWorld Ls)) dof gvec junk (r, (k:Int))

/-- Number of a function without the periodic shift of collocation. -/
def unshift (colloc : Bool) (axs : List (Axis K)) (y : List Int) : List Int := List.zipWith (fun (ax : Axis K) i => i - shiftOf colloc ax) axs y

theorem unshift_block {axs : List (Axis K)} {ds : List Dir} (h : List.Forall₂ (DirP colloc) axs ds)
    (hw : ds.map Dir.geomGwidth = ds.map Dir.nodeGwidth) : ∀ {y : List Int}, InBlock (ds.map Dir.geomGstart) (ds.map Dir.geomGwidth) y →
    InBlock (ds.map Dir.nodeGstart) (ds.map Dir.nodeGwidth) (unshift colloc axs y) ∧
      rel (ds.map Dir.nodeGstart) (unshift colloc axs y) = rel (ds.map Dir.geomGstart) y := by
  induction h with
  | nil => intro y hy; cases hy; exact ⟨.nil, rfl⟩
  | cons h1 h2 ih =>
    intro y hy
    simp only [List.map_cons, List.cons.injEq] at hy hw
    cases hy with
    | @cons _ _ i _ _ is b1 b2 =>
      obtain ⟨a, b⟩ := ih hw.2 b2
      have := h1.gstart
      unfold unshift rel at *
      simp only [List.map_cons, List.zipWith_cons_cons]
      exact ⟨.cons (by have := hw.1; omega) a, by rw [b]; congr 1; omega⟩

theorem vec_stores (S : Setup g2 g3 colloc size procs axes axs Ls) {r : Nat} {L : Layout K} (h : Ls[r]? = some L)
    (hw : L.dir.map Dir.geomGwidth = L.dir.map Dir.nodeGwidth)
    {dof : Nat} {gvec : Int → V} {u : List Int → Nat → V} (hu : Represents axs Ls dof gvec u) (junk : Nat × Int → V) :
    Stores (L.dir.map Dir.geomGstart) (L.dir.map Dir.geomGwidth) dof (localArray Ls dof gvec junk r L)
      (fun y c => u (modAll (axs.map Axis.nnp) (unshift colloc axs y)) c) := by
  intro y c hy hc
  have hd := setup_dirs S h (R := DirP colloc) (fun ax P r a b c d e f => dirP a b c d e f)
  obtain ⟨a, b⟩ := unshift_block hd hw hy
  rw [← b, hw]
  obtain ⟨f0, f1⟩ := flat_range (rel_inBox a)
  have hloc := Asm.local_ok S h hu junk a hc
  have e0 : 0 ≤ flat (L.dir.map Dir.nodeGwidth) (rel (L.dir.map Dir.nodeGstart) (unshift colloc axs y)) * (dof:Int) :=
    Int.mul_nonneg f0 (by omega)
  have e1 : (flat (L.dir.map Dir.nodeGwidth) (rel (L.dir.map Dir.nodeGstart) (unshift colloc axs y)) + 1) * (dof:Int) ≤
      prod (L.dir.map Dir.nodeGwidth) * (dof:Int) := Int.mul_le_mul_of_nonneg_right (by omega) (by omega)
  rw [add_mul, one_mul] at e1
  unfold localArray
  rw [List.getElem?_map, List.getElem?_range]
  · simp only [Option.map_some, Option.some.injEq]
    rw [Int.toNat_of_nonneg (by omega)]
    exact hloc
  · have : (((prod (L.dir.map Dir.nodeGwidth)).toNat * dof : Nat) : Int) = prod (L.dir.map Dir.nodeGwidth) * (dof:Int) := by
      push_cast
      rw [Int.toNat_of_nonneg (by omega)]
    omega

theorem closure_values {ks e : List Int} (hk : List.Forall₂ (fun (ax : Axis K) (ke : Int × Int) => spanOf colloc ax ke.2 = .ok ke.1) axs (List.zip ks e))
    (hl : axs.length = ks.length) (he : axs.length = e.length) (dof : Nat) (u : List Int → Nat → V) :
    closureVals axs ks dof (fun y c => u (modAll (axs.map Axis.nnp) (unshift colloc axs y)) c) = valuesOf colloc axs dof u e := by
  unfold closureVals valuesOf nodeOf
  congr 1
  funext t
  congr 1
  funext c
  show u (modAll _ (unshift colloc axs _)) c = _
  congr 2
  clear c
  induction axs generalizing ks e t with
  | nil => rfl
  | cons ax axs ih =>
    cases ks with
    | nil => simp at hl
    | cons k ks => cases e with
      | nil => simp at he
      | cons i e =>
        rw [List.zip_cons_cons] at hk
        cases hk with
        | cons c1 c2 =>
          cases t with
          | nil => simp [plus, unshift]
          | cons j t =>
            have hi := ih c2 (by simpa using hl) (by simpa using he) t
            unfold plus unshift firstNodes at *
            simp only [List.zipWith_cons_cons, hi]
            congr 1
            dsimp only at c1
            unfold firstNode
            rw [c1]
            dsimp only
            ring

/-- **C52** for the coefficients of a vector: for every point and every vector storing the nodal field `u`, the
collective probe gives every process the values of `u` on the element containing the point (periodic directions taken
into account). -/
theorem C52_vector (S : Setup g2 g3 false size procs axes axs Ls) {us : List K} (hu : us.length = axs.length) (debug : Bool)
    (hdom : debug = true → InDomain axs us) {dof : Nat} {gvec : Int → V} {u : List Int → Nat → V} (hv : Represents axs Ls dof gvec u)
    (junk : Nat × Int → V) (old : Nat → List (List V)) :
    ∃ ks e, PointSpans axs us ks ∧ InBox (axs.map Axis.nel) e ∧
      List.Forall₂ (fun (ax : Axis K) (ke : Int × Int) => spanOf false ax ke.2 = .ok ke.1) axs (List.zip ks e) ∧
      ∃ outs, setPoint debug true (probes Ls (fun r => match Ls[r]? with
          | some L => [(dof, localArray Ls dof gvec junk r L)] | none => []) old) us = .ok outs ∧ outs.length = Ls.length ∧
        ∀ o ∈ outs, o.2 = [valuesOf false axs dof u e] := by
  obtain ⟨ks, h1, h2⟩ := gal_spans (colloc := false) (setup_wf S) (fun ax ha => (S.cond ax ha).1 rfl) hu
  obtain ⟨e, e1, e2⟩ := elem_of (setup_wf S) h1
  refine ⟨ks, e, h1, e1, e2, ?_⟩
  have hl := spans_len h1
  have hel : axs.length = e.length := by
    have := Grid.inBox_length e1
    simpa using this.symm
  refine ⟨_, (setPoint_ok S hl.1 debug hu hdom h2 [(dof, fun y c => u (modAll (axs.map Axis.nnp) (unshift false axs y)) c)] _ old
    ?_ (found S e1 e2 hl.1)).2, by simp, ?_⟩
  · intro r L hr
    rw [hr]
    refine .cons ⟨rfl, vec_stores S hr ?_ hv junk⟩ .nil
    have hd := setup_dirs S hr (R := DirP false) (fun ax P r a b c d e f => dirP a b c d e f)
    generalize L.dir = ds at hd
    clear * - hd
    induction hd with
    | nil => rfl
    | cons a b ih => simp only [List.map_cons, ih, a.gwidth (Or.inl rfl)]
  · intro o ho
    rw [List.mem_map] at ho
    obtain ⟨L, -, rfl⟩ := ho
    show [closureVals axs ks dof _] = _
    rw [closure_values e2 hl.1 hel dof u]

/-- **C52** with collocation, partial: if the first and the last interval of the domain are not empty and every
non-empty interval contains a collocation point, the collective probe gives every process the values at the functions
that are not zero on the intervals containing the point.  Missing: intervals without a collocation point
(`C52_collocation_refuted`). -/
theorem C52_collocation_partial (S : Setup g2 g3 true size procs axes axs Ls) {us : List K} (hu : us.length = axs.length) (debug : Bool)
    (hdom : debug = true → InDomain axs us)
    (hends : ∀ ax ∈ axs, ax.U ax.p < ax.U (ax.p+1) ∧ ax.U (ax.m-ax.p-1) < ax.U (ax.m-ax.p))
    (hcov : ∀ ax ∈ axs, ∀ k, IsElement ax.p ax.m ax.U k → ∃ i, 0 ≤ i ∧ i < ax.nnp ∧ spanOf true ax i = .ok k)
    (specs : List (Nat × (List Int → Nat → V))) (arr : Nat → List (Nat × List V))
    (old : Nat → List (List V)) (hst : AllStore Ls arr specs) :
    ∃ ks, PointSpans axs us ks ∧ ∃ outs, setPoint debug true (probes Ls arr old) us = .ok outs ∧ outs.length = Ls.length ∧
      ∀ o ∈ outs, o.2 = specs.map fun s => closureVals axs ks s.1 s.2 := by
  obtain ⟨ks, h1, h2⟩ := gal_spans (colloc := true) (setup_wf S) hends hu
  have hx : ∃ e, InBox (axs.map (gridSize true)) e ∧
      List.Forall₂ (fun (ax : Axis K) (ke : Int × Int) => spanOf true ax ke.2 = .ok ke.1) axs (List.zip ks e) := by
    clear h2 hst hdom hu hends S
    induction h1 with
    | nil => exact ⟨[], .nil, .nil⟩
    | @cons ax u k axs us ks h1 h2 ih =>
      obtain ⟨e, a, b⟩ := ih fun a ha => hcov a (by simp [ha])
      obtain ⟨i, i0, i1, i2⟩ := hcov ax (by simp) k h1.elem
      exact ⟨i :: e, .cons ⟨i0, i1⟩ a, .cons i2 b⟩
  obtain ⟨e, e1, e2⟩ := hx
  refine ⟨ks, h1, _, (setPoint_ok S (spans_len h1).1 debug hu hdom h2 specs arr old hst (found S e1 e2 (spans_len h1).1)).2, by simp, ?_⟩
  intro o ho
  rw [List.mem_map] at ho
  obtain ⟨L, -, rfl⟩ := ho
  rfl

end PetIGA.Prb
