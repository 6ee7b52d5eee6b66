import Verif.Lemmas.Mat
import Verif.Props.Grid
import Verif.Props.Colloc
import Batteries.Data.List.Perm

/-! C38, C39, C69: the nonzero structure of matrices. -/

set_option linter.unusedSectionVars false

namespace PetIGA.Mat
open PetIGA.Ax PetIGA.Lay PetIGA.Grid PetIGA.Spec PetIGA.Part

variable {K V : Type} [Field K] [LinearOrder K] [IsStrictOrderedRing K]

/-! ### One direction -/

/-- First column of row `i`. -/
def stF (colloc : Bool) (d : MDir K) (i : Int) : Int := if colloc then (d.offset[i.toNat]?).getD 0 else galF d.ax i
/-- Last column of row `i`. -/
def stL (colloc : Bool) (d : MDir K) (i : Int) : Int := if colloc then (d.offset[i.toNat]?).getD 0 + d.ax.p else galL d.ax i

/-- The offsets are those of the collocation tables of the axis (`C68_collocation_tables`). -/
def CollocOffsets (d : MDir K) : Prop :=
  ∃ (cb : Int → K → Unit) (b : Quad.Basis K Unit), Quad.initCollocation cb .bspline d.ax = .ok b ∧ d.offset = b.elems.map Quad.Elem.offset

/-- What is assumed of a direction: a configured axis, and a non-empty range of owned nodes; with the Galerkin method, a periodic
knot vector that repeats (or closes with continuity zero); with collocation, the tables of `IGABasisInitCollocation`. -/
structure DirReady (colloc : Bool) (d : MDir K) : Prop where
  wf : WF d.ax
  inside : 0 ≤ d.lstart ∧ 1 ≤ d.lwidth ∧ d.lstart + d.lwidth ≤ d.ax.nnp
  periodic : colloc = false → PeriodicOK d.ax
  offsets : colloc = true → CollocOffsets d

/-- What the proofs use of a direction. -/
structure Ranges (colloc : Bool) (d : MDir K) : Prop where
  eq : ∀ i, 0 ≤ i → i < d.ax.nnp → stencil colloc d.offset d.ax i = .ok (stF colloc d i, stL colloc d i)
  self : ∀ i, 0 ≤ i → i < d.ax.nnp → stF colloc d i ≤ i ∧ i ≤ stL colloc d i
  near : ∀ i, 0 ≤ i → i < d.ax.nnp → i - d.ax.p ≤ stF colloc d i ∧ stL colloc d i ≤ i + d.ax.p
  mono : ∀ i j, 0 ≤ i → i ≤ j → j < d.ax.nnp → stF colloc d i ≤ stF colloc d j ∧ stL colloc d i ≤ stL colloc d j
  inside : 0 ≤ d.lstart ∧ 1 ≤ d.lwidth ∧ d.lstart + d.lwidth ≤ d.ax.nnp

/-- Points further right are evaluated in the same or a later interval. -/
theorem evalSpan_mono {ax : Axis K} (h : WF ax) {u v : K} {k l : Int} (huv : u < v) (hk : Quad.EvalSpan ax u k)
    (hl : Quad.EvalSpan ax v l) : k ≤ l := by
  have hp := h.legal.degree
  have hm := h.legal.enough
  have hs := h.legal.sorted
  have mono := fun {i j : Int} (a : 0 ≤ i) (b : i ≤ j) (c : j ≤ ax.m) => sorted_mono hs a b c
  rcases hk with ⟨a, rfl⟩ | ⟨a, rfl⟩ | ⟨a1, a2, a3, a4⟩
  · rcases hl with ⟨b, rfl⟩ | ⟨b, rfl⟩ | ⟨b1, b2, b3, b4⟩ <;> omega
  · rcases hl with ⟨b, rfl⟩ | ⟨b, rfl⟩ | ⟨b1, b2, b3, b4⟩
    · have := mono (i := ax.p) (j := ax.m - ax.p) (by omega) (by omega) (by omega)
      exact absurd huv (not_lt.2 (le_trans b (le_trans this a)))
    · omega
    · have := mono (i := l+1) (j := ax.m - ax.p) (by omega) (by omega) (by omega)
      exact absurd huv (not_lt.2 (le_of_lt (lt_of_lt_of_le b4 (le_trans this a))))
  · rcases hl with ⟨b, rfl⟩ | ⟨b, rfl⟩ | ⟨b1, b2, b3, b4⟩
    · have := mono (i := ax.p) (j := k) (by omega) (by omega) (by omega)
      exact absurd huv (not_lt.2 (le_trans b (le_trans this a3)))
    · omega
    · by_contra hc
      have := mono (i := l+1) (j := k) (by omega) (by omega) (by omega)
      exact absurd huv (not_lt.2 (le_of_lt (lt_of_lt_of_le b4 (le_trans this a3))))

theorem offset_spec {d : MDir K} (h : WF d.ax) (ho : CollocOffsets d) :
    (∀ i : Int, 0 ≤ i → i < d.ax.nnp → ∃ k, d.offset[i.toNat]? = some k ∧ k ≤ i ∧ i ≤ k + d.ax.p) ∧
    (∀ (i j k l : Int), 0 ≤ i → i ≤ j → j < d.ax.nnp → d.offset[i.toNat]? = some k → d.offset[j.toNat]? = some l → k ≤ l) := by
  obtain ⟨cb, b, hb, hoff⟩ := ho
  obtain ⟨b', shift, e, s0, s1, -, -, -, -, hel, hinc⟩ := Quad.C68_collocation_tables cb d.ax h
  rw [hb] at e
  cases e
  have hget : ∀ i : Int, 0 ≤ i → i < d.ax.nnp → ∃ k, d.offset[i.toNat]? = some (k - d.ax.p - shift) ∧
      k - d.ax.p - shift ≤ i ∧ i ≤ k - d.ax.p - shift + d.ax.p ∧ Quad.EvalSpan d.ax (greville (i + shift) d.ax.p d.ax.U) k := by
    intro i h0 h1
    obtain ⟨k, k1, k2, k3, k4⟩ := hel i.toNat (by omega)
    have ei : ((i.toNat : Nat) : Int) = i := by omega
    rw [ei] at k1 k2 k3 k4
    refine ⟨k, ?_, k2, k3, k1⟩
    rw [hoff, List.getElem?_map, k4]
    rfl
  refine ⟨?_, ?_⟩
  · intro i h0 h1
    obtain ⟨k, k1, k2, k3, -⟩ := hget i h0 h1
    exact ⟨_, k1, k2, k3⟩
  · intro i j k l h0 hij h1 hk hl
    rcases eq_or_lt_of_le hij with rfl | hlt
    · rw [hk] at hl; cases hl; exact le_refl _
    · obtain ⟨k', k1, -, -, k4⟩ := hget i h0 (by omega)
      obtain ⟨l', l1, -, -, l4⟩ := hget j (by omega) h1
      have hg := hinc i.toNat j.toNat (by omega) (by omega)
      have ei : ((i.toNat : Nat) : Int) = i := by omega
      have ej : ((j.toNat : Nat) : Int) = j := by omega
      rw [ei, ej] at hg
      have := evalSpan_mono h hg k4 l4
      rw [k1] at hk; rw [l1] at hl
      cases hk; cases hl
      omega

theorem ranges_of_ready {colloc : Bool} {d : MDir K} (h : DirReady colloc d) : Ranges colloc d := by
  cases colloc with
  | false =>
    refine ⟨fun i _ _ => ?_, fun i h0 h1 => ?_, fun i h0 h1 => ?_, fun i j h0 hij h1 => ?_, h.inside⟩
    · exact stencil_gal h.wf _ _
    · have := gal_self h.wf h0 h1; exact ⟨this.1, this.2.1⟩
    · have := gal_self h.wf h0 h1; exact this.2.2
    · exact gal_mono h.wf (h.periodic rfl) h0 hij h1
  | true =>
    obtain ⟨o1, o2⟩ := offset_spec h.wf (h.offsets rfl)
    refine ⟨fun i h0 h1 => ?_, fun i h0 h1 => ?_, fun i h0 h1 => ?_, fun i j h0 hij h1 => ?_, h.inside⟩
    · obtain ⟨k, k1, k2, k3⟩ := o1 i h0 h1
      simp only [stencil, stF, stL, if_true]
      rw [if_neg (by omega), k1]
      rfl
    · obtain ⟨k, k1, k2, k3⟩ := o1 i h0 h1
      simp only [stF, stL, if_true, k1, Option.getD_some]
      exact ⟨k2, k3⟩
    · obtain ⟨k, k1, k2, k3⟩ := o1 i h0 h1
      simp only [stF, stL, if_true, k1, Option.getD_some]
      omega
    · obtain ⟨k, k1, k2, k3⟩ := o1 i h0 (by omega)
      obtain ⟨l, l1, l2, l3⟩ := o1 j (by omega) h1
      have := o2 i j k l h0 hij h1 k1 l1
      simp only [stF, stL, if_true, k1, l1, Option.getD_some]
      omega

/-! ### All directions -/

/-- Ghosted range of a direction. -/
def grange (colloc : Bool) (d : MDir K) : Int × Int :=
  (stF colloc d d.lstart, stL colloc d (d.lstart + d.lwidth - 1) + 1 - stF colloc d d.lstart)

/-- Column range of row `i` of a direction. -/
def crange (colloc : Bool) (d : MDir K) (i : Int) : Int × Int := (stF colloc d i, stL colloc d i + 1 - stF colloc d i)

theorem ghostRanges_eq (colloc : Bool) : ∀ (ds : List (MDir K)), (∀ d ∈ ds, Ranges colloc d) →
    ghostRanges colloc ds = .ok (ds.map (grange colloc))
  | [], _ => rfl
  | d :: ds, h => by
    have hd := h d (by simp)
    obtain ⟨i0, i1, i2⟩ := hd.inside
    simp only [ghostRanges, ghostRange, hd.eq d.lstart (by omega) (by omega),
      hd.eq (d.lstart + d.lwidth - 1) (by omega) (by omega), Res.bind, List.map_cons, grange]
    rw [ghostRanges_eq colloc ds fun a ha => h a (by simp [ha])]

theorem columnRanges_eq (colloc : Bool) : ∀ (ds : List (MDir K)) (x : List Int), (∀ d ∈ ds, Ranges colloc d) →
    InBlock (ds.map MDir.lstart) (ds.map MDir.lwidth) x →
    columnRanges colloc ds (ds.map (grange colloc)) x = .ok (List.zipWith (crange colloc) ds x)
  | [], x, _, hx => by cases hx; rfl
  | d :: ds, x, h, hx => by
    cases hx with
    | cons h1 h2 =>
      rename_i i is
      have hd := h d (by simp)
      obtain ⟨i0, i1, i2⟩ := hd.inside
      have ih := columnRanges_eq colloc ds is (fun a ha => h a (by simp [ha])) h2
      have m1 := hd.mono d.lstart i i0 h1.1 (by omega)
      have m2 := hd.mono i (d.lstart + d.lwidth - 1) (by omega) (by omega) (by omega)
      simp only [List.map_cons, columnRanges, hd.eq i (by omega) (by omega), Res.bind, ih, List.zipWith_cons_cons]
      congr 2
      simp only [crange, grange]
      rw [max_eq_left m1.1, min_eq_left (by omega)]

/-- The sizes of the node grid. -/
def nodeSizes (ds : List (MDir K)) : List Int := ds.map fun d => d.ax.nnp

theorem matGrid_gbox (colloc : Bool) (ds : List (MDir K)) : gbox (matGrid ds (ds.map (grange colloc))) = ds.map (grange colloc) := by
  induction ds with
  | nil => rfl
  | cons d ds ih =>
    simp only [gbox, matGrid, List.map_cons, List.zipWith_cons_cons] at ih ⊢
    rw [ih]

theorem matGrid_sizes (colloc : Bool) (ds : List (MDir K)) : sizes (matGrid ds (ds.map (grange colloc))) = nodeSizes ds := by
  induction ds with
  | nil => rfl
  | cons d ds ih =>
    simp only [sizes, matGrid, List.map_cons, List.zipWith_cons_cons, nodeSizes] at ih ⊢
    rw [ih]

theorem apply_box (W : World) (colloc : Bool) (ds : List (MDir K)) {y : List Int}
    (hy : y ∈ box (ds.map (grange colloc))) :
    applyOne (lgmap W (matGrid ds (ds.map (grange colloc)))) (index3D (ds.map (grange colloc)) y) =
      .ok (appToPetsc W (flat (nodeSizes ds) (wrapAll (nodeSizes ds) y))) := by
  obtain ⟨p0, p1⟩ := pos_get hy
  have e : index3D (ds.map (grange colloc)) y = pos (ds.map (grange colloc)) y := by
    unfold index3D pos
    rw [natural_one]
    rfl
  rw [e]
  unfold applyOne
  rw [if_neg (by omega)]
  have : (lgmap W (matGrid ds (ds.map (grange colloc))))[(pos (ds.map (grange colloc)) y).toNat]? =
      some (appToPetsc W (flat (nodeSizes ds) (wrapAll (nodeSizes ds) y))) := by
    unfold lgmap
    rw [ghostIndices_one, matGrid_gbox, matGrid_sizes, List.getElem?_map, List.getElem?_map, p1]
    rfl
  rw [this]

theorem applyAll_box (W : World) (colloc : Bool) (ds : List (MDir K)) : ∀ (L : List (List Int)),
    (∀ y ∈ L, y ∈ box (ds.map (grange colloc))) →
    applyAll (lgmap W (matGrid ds (ds.map (grange colloc)))) (L.map (index3D (ds.map (grange colloc)))) =
      .ok (L.map fun y => appToPetsc W (flat (nodeSizes ds) (wrapAll (nodeSizes ds) y)))
  | [], _ => rfl
  | y :: L, h => by
    simp only [List.map_cons, applyAll, apply_box W colloc ds (h y (by simp)), Res.bind,
      applyAll_box W colloc ds L fun a ha => h a (by simp [ha])]

theorem crange_sub (colloc : Bool) : ∀ (ds : List (MDir K)) (x y : List Int), (∀ d ∈ ds, Ranges colloc d) →
    InBlock (ds.map MDir.lstart) (ds.map MDir.lwidth) x → y ∈ box (List.zipWith (crange colloc) ds x) →
    y ∈ box (ds.map (grange colloc))
  | [], x, y, _, hx, hy => by cases hx; exact hy
  | d :: ds, x, y, h, hx, hy => by
    cases hx with
    | cons h1 h2 =>
      rename_i i is
      have hd := h d (by simp)
      obtain ⟨i0, i1, i2⟩ := hd.inside
      have m1 := hd.mono d.lstart i i0 h1.1 (by omega)
      have m2 := hd.mono i (d.lstart + d.lwidth - 1) (by omega) (by omega) (by omega)
      rw [mem_box] at hy ⊢
      simp only [List.zipWith_cons_cons, List.map_cons] at hy ⊢
      cases hy with
      | cons y1 y2 =>
        refine .cons ?_ ?_
        · simp only [crange, grange] at y1 ⊢; omega
        · have := crange_sub colloc ds is _ (fun a ha => h a (by simp [ha])) h2 (by rw [mem_box]; exact y2)
          rwa [mem_box] at this

theorem self_mem (colloc : Bool) : ∀ (ds : List (MDir K)) (x : List Int), (∀ d ∈ ds, Ranges colloc d) →
    InBlock (ds.map MDir.lstart) (ds.map MDir.lwidth) x →
    x ∈ box (List.zipWith (crange colloc) ds x) ∧ wrapAll (nodeSizes ds) x = x
  | [], x, _, hx => by cases hx; exact ⟨by simp [box], rfl⟩
  | d :: ds, x, h, hx => by
    cases hx with
    | cons h1 h2 =>
      rename_i i is
      have hd := h d (by simp)
      obtain ⟨i0, i1, i2⟩ := hd.inside
      obtain ⟨r1, r2⟩ := self_mem colloc ds is (fun a ha => h a (by simp [ha])) h2
      have hs := hd.self i (by omega) (by omega)
      rw [mem_box] at r1 ⊢
      refine ⟨?_, ?_⟩
      · simp only [List.zipWith_cons_cons, List.map_cons]
        refine .cons ?_ r1
        simp only [crange]; omega
      · simp only [wrapAll, nodeSizes, List.map_cons, List.zipWith_cons_cons] at r2 ⊢
        rw [r2]
        congr 1
        unfold wrap
        rw [if_neg (by omega), if_neg (by omega)]

theorem rowOf_eq (W : World) (colloc : Bool) (ds : List (MDir K)) (x : List Int) (h : ∀ d ∈ ds, Ranges colloc d)
    (hx : InBlock (ds.map MDir.lstart) (ds.map MDir.lwidth) x) :
    rowOf colloc W ds (ds.map (grange colloc)) x =
      .ok (appToPetsc W (flat (nodeSizes ds) x), (box (List.zipWith (crange colloc) ds x)).map
        fun y => appToPetsc W (flat (nodeSizes ds) (wrapAll (nodeSizes ds) y))) := by
  obtain ⟨r1, r2⟩ := self_mem colloc ds x h hx
  simp only [rowOf, columnIndices, columnRanges_eq colloc ds x h hx, Res.bind,
    apply_box W colloc ds (crange_sub colloc ds x x h hx r1),
    applyAll_box W colloc ds _ (fun y hy => crange_sub colloc ds x y h hx hy), r2]

theorem rowsOf_eq (W : World) (colloc : Bool) (ds : List (MDir K)) (h : ∀ d ∈ ds, Ranges colloc d) : ∀ (L : List (List Int)),
    (∀ x ∈ L, InBlock (ds.map MDir.lstart) (ds.map MDir.lwidth) x) →
    rowsOf colloc W ds (ds.map (grange colloc)) L = .ok (L.map fun x =>
      (appToPetsc W (flat (nodeSizes ds) x), (box (List.zipWith (crange colloc) ds x)).map
        fun y => appToPetsc W (flat (nodeSizes ds) (wrapAll (nodeSizes ds) y))))
  | [], _ => rfl
  | x :: L, hL => by
    simp only [rowsOf, rowOf_eq W colloc ds x h (hL x (by simp)), Res.bind, List.map_cons,
      rowsOf_eq W colloc ds h L fun a ha => hL a (by simp [ha])]

/-! ### C38 -/

/-- Two nodes of a direction are coupled.  Galerkin: they have basis functions on a common element.  Collocation: node `j` has one
of the `p+1` functions tabulated at the point of node `i`. -/
def DirCoupled (colloc : Bool) (d : MDir K) (i j : Int) : Prop :=
  if colloc then ∃ k a, d.offset[i.toNat]? = some k ∧ k ≤ a ∧ a ≤ k + d.ax.p ∧ NodeOf d.ax.nnp a j
  else Coupled d.ax.p d.ax.m d.ax.U d.ax.nnp i j

/-- Nodes of the grid are coupled if they are in every direction (elements are products of intervals). -/
inductive NodesCoupled (colloc : Bool) : List (MDir K) → List Int → List Int → Prop
  | nil : NodesCoupled colloc [] [] []
  | cons {d : MDir K} {ds : List (MDir K)} {i j : Int} {is js : List Int} : DirCoupled colloc d i j →
      NodesCoupled colloc ds is js → NodesCoupled colloc (d :: ds) (i :: is) (j :: js)

/-- The number of a node in global vectors and matrices (bijective by C26). -/
def globalNumber (W : World) (ds : List (MDir K)) (x : List Int) : Int := appToPetsc W (flat (nodeSizes ds) x)

theorem dir_cover {colloc : Bool} {d : MDir K} (h : DirReady colloc d) {i j : Int} (h0 : 0 ≤ i) (h1 : i < d.ax.nnp)
    (hc : DirCoupled colloc d i j) : ∃ c, stF colloc d i ≤ c ∧ c ≤ stL colloc d i ∧ wrap d.ax.nnp c = j := by
  have hs := (ranges_of_ready h).self i h0 h1
  cases colloc with
  | false =>
    simp only [DirCoupled, Bool.false_eq_true, if_false] at hc
    obtain ⟨c, t, c1, c2, c3⟩ := gal_cover h.wf (h.periodic rfl) hc
    obtain ⟨k, a, b, -, -, -, -, -, -, hj⟩ := hc
    exact wrap_choice (f := stF false d i) (l := stL false d i) h0 hs.2 c1 c2 hj.1 hj.2.1 c3
  | true =>
    simp only [DirCoupled, if_true] at hc
    obtain ⟨k, a, k1, a1, a2, j0, j1, t, ht⟩ := hc
    have e1 : stF true d i = k := by simp [stF, k1]
    have e2 : stL true d i = k + d.ax.p := by simp [stL, k1]
    exact wrap_choice h0 hs.2 (by omega) (by omega) j0 j1 ht

theorem cover (colloc : Bool) : ∀ (ds : List (MDir K)) (x y : List Int), (∀ d ∈ ds, DirReady colloc d) →
    InBlock (ds.map MDir.lstart) (ds.map MDir.lwidth) x → NodesCoupled colloc ds x y →
    ∃ z, z ∈ box (List.zipWith (crange colloc) ds x) ∧ wrapAll (nodeSizes ds) z = y
  | [], x, y, _, hx, hy => by cases hx; cases hy; exact ⟨[], by simp [box], rfl⟩
  | d :: ds, x, y, h, hx, hy => by
    cases hx with
    | cons h1 h2 =>
      rename_i i is
      cases hy with
      | cons y1 y2 =>
        have hd := h d (by simp)
        obtain ⟨i0, i1, i2⟩ := hd.inside
        obtain ⟨z, z1, z2⟩ := cover colloc ds is _ (fun a ha => h a (by simp [ha])) h2 y2
        obtain ⟨c, c1, c2, c3⟩ := dir_cover hd (by omega) (by omega) y1
        refine ⟨c :: z, ?_, ?_⟩
        · rw [mem_box] at z1 ⊢
          simp only [List.zipWith_cons_cons, List.map_cons]
          refine .cons ?_ z1
          simp only [crange]; omega
        · simp only [wrapAll, nodeSizes, List.map_cons, List.zipWith_cons_cons] at z2 ⊢
          rw [z2, c3]

/-- **C38.**  In any dimension, with any number of processes and with either method, a matrix created by the library has one row for
every node owned by the process, in order, under the node's global number, and the row has a column for every node that is
coupled to it.  Partial: periodic knot vectors (Galerkin) must repeat or close with continuity zero; see
`C38_periodic_refuted`. -/
theorem C38_pattern_partial (colloc : Bool) (W : World) (ds : List (MDir K)) (h : ∀ d ∈ ds, DirReady colloc d) :
    ∃ rows, createMat colloc W ds = .ok rows ∧
      rows.map Prod.fst = (box (ds.map fun d => (d.lstart, d.lwidth))).map (globalNumber W ds) ∧
      ∀ x, InBlock (ds.map MDir.lstart) (ds.map MDir.lwidth) x →
        ∃ cols, (globalNumber W ds x, cols) ∈ rows ∧
          ∀ y, NodesCoupled colloc ds x y → globalNumber W ds y ∈ cols := by
  have hR : ∀ d ∈ ds, Ranges colloc d := fun d hd => ranges_of_ready (h d hd)
  have hbox : ∀ x, x ∈ box (ds.map fun d => (d.lstart, d.lwidth)) ↔ InBlock (ds.map MDir.lstart) (ds.map MDir.lwidth) x := by
    intro x
    rw [mem_box, List.map_map, List.map_map]
    rfl
  refine ⟨(box (ds.map fun d => (d.lstart, d.lwidth))).map fun x =>
      (appToPetsc W (flat (nodeSizes ds) x), (box (List.zipWith (crange colloc) ds x)).map
        fun y => appToPetsc W (flat (nodeSizes ds) (wrapAll (nodeSizes ds) y))), ?_, ?_, ?_⟩
  · simp only [createMat, ghostRanges_eq colloc ds hR, Res.bind]
    exact rowsOf_eq W colloc ds hR _ fun x hx => (hbox x).1 hx
  · rw [List.map_map]; rfl
  · intro x hx
    refine ⟨_, List.mem_map.2 ⟨x, (hbox x).2 hx, rfl⟩, ?_⟩
    intro y hy
    obtain ⟨z, z1, z2⟩ := cover colloc ds x y h hx hy
    exact List.mem_map.2 ⟨z, z1, by rw [z2]; rfl⟩

/-- What set-up stage 1 leaves for `IGACreateMat`; `off` gives the offsets of the basis tables. -/
def dirsOf (L : Layout K) (off : Axis K → List Int) : List (MDir K) :=
  List.zipWith (fun ax d => ⟨ax, off ax, d.nodeLstart, d.nodeLwidth⟩) L.axes L.dir

/-- The directions left by a successful set-up of axes configured with the API, on any process, meet the hypotheses of
`C38_pattern_partial` (the condition on the first interval is that of C20). -/
theorem C38_after_setup (g2 : Guess2) (g3 : Guess3) (colloc : Bool) (size rank : Int)
    (procs : List Int) (axes : List (Axis K)) (L : Layout K) (off : Axis K → List Int) (hr : ∀ ax ∈ axes, Reached ax)
    (h : stage1 g2 g3 colloc size rank procs axes = .ok L)
    (hfirst : colloc = false → ∀ ax ∈ L.axes, ax.U ax.p < ax.U (ax.p+1))
    (hper : colloc = false → ∀ ax ∈ L.axes, PeriodicOK ax)
    (hoff : colloc = true → ∀ ax ∈ L.axes, ∃ (cb : Int → K → Unit) (b : Quad.Basis K Unit),
      Quad.initCollocation cb .bspline ax = .ok b ∧ off ax = b.elems.map Quad.Elem.offset) :
    ∀ d ∈ dirsOf L off, DirReady colloc d := by
  intro e he
  unfold dirsOf at he
  obtain ⟨i, hi⟩ := List.getElem?_of_mem he
  rw [List.getElem?_zipWith] at hi
  cases h1 : L.axes[i]? with
  | none => rw [h1] at hi; simp at hi
  | some ax =>
    cases h2 : L.dir[i]? with
    | none => rw [h1, h2] at hi; simp at hi
    | some d =>
      rw [h1, h2] at hi
      simp only [Option.some.injEq] at hi
      obtain ⟨hw, P, r, hP, hN, r0, r1, hd⟩ := stage1_get hr h i ax d h1 h2
      have hm := List.mem_of_getElem? h1
      subst hi
      refine ⟨hw, ?_, fun hc => hper hc ax hm, fun hc => hoff hc ax hm⟩
      rw [hd]
      exact tiles_range (node_tiles colloc hw hP hN fun hc => hfirst hc ax hm) r0 r1

/-- Every non-periodic axis meets the condition on the knots, and so do the periodic axes initialised with `IGAAxisInitUniform` and
`IGAAxisInitBreaks`. -/
theorem C38_periodic_ok (ax : Axis K) :
    (ax.periodic = false → PeriodicOK ax) ∧
    (∀ mem N Ui Uf C, ax.periodic = true → (initUniform mem ax N Ui Uf C).1 = .ok () →
      PeriodicOK (initUniform mem ax N Ui Uf C).2) ∧
    (∀ mem nu u C, ax.periodic = true → (initBreaks mem ax nu u C).1 = .ok () → PeriodicOK (initBreaks mem ax nu u C).2) := by
  refine ⟨fun h hc => by rw [h] at hc; exact absurd hc (by decide), ?_, ?_⟩
  · intro mem N Ui Uf C hp h _
    right
    intro j h0 h1
    rw [(C08_initUniform_periodic mem ax N Ui Uf C hp h).2 j h0 h1]
    obtain ⟨C', e, h1, h2, h3, h4, h5, h6⟩ := initUniform_ok h
    rw [h6]
    have B := fillAxis_built ax N C' (uniformBreak N Ui Uf) mem h1 h2 h3 h4
    rw [B.p_eq, B.U_p h1 (by omega) h3 h4, B.U_mp h1 (by omega) h3 h4]
    unfold uniformBreak
    rw [if_pos rfl, if_neg (by omega), if_pos rfl]
  · intro mem nu u C hp h _
    right
    exact (C08_initBreaks_periodic mem ax nu u C hp h).2

/-! ### Local matrices (`MATIS`) -/

/-- Functions `i`, `j` of a direction are both nonzero on some element. -/
def SameElement (d : MDir K) (i j : Int) : Prop :=
  ∃ k, IsElement d.ax.p d.ax.m d.ax.U k ∧ k - d.ax.p ≤ i ∧ i ≤ k ∧ k - d.ax.p ≤ j ∧ j ≤ k

theorem gal_local {d : MDir K} (h : WF d.ax) {i j : Int} (hi : 0 ≤ i) (hc : SameElement d i j) : galF d.ax i ≤ j ∧ j ≤ galL d.ax i := by
  obtain ⟨k, ⟨k1, k2, k3⟩, i1, i2, j1, j2⟩ := hc
  obtain ⟨n1, n2, n3, n4⟩ := nnp_bounds h
  have hp := h.legal.degree
  have hm := h.legal.enough
  have hs := h.legal.sorted
  have e1 := next_le hs (i := i) (k := k) hi i2 (by omega) k3
  have e2 := prev_ge (m := d.ax.m) (U := d.ax.U) (i := i + d.ax.p + 1) (k := k) (by omega) (by omega) (by omega)
    (lt_of_lt_of_le k3 (sorted_mono hs (by omega) (by omega) (by omega)))
  have z := gal_self h (i := 0) (le_refl _) (by cases hq : d.ax.periodic with | false => have := n3 hq; omega | true => have := n4 hq; omega)
  constructor
  · by_cases h0 : i = 0
    · rw [h0]; omega
    · unfold galF; split_ifs <;> omega
  · unfold galL; split_ifs <;> omega

/-- A direction of a ghosted grid: a configured axis and a range of its functions. -/
def Ghosted (d : MDir K) : Prop := WF d.ax ∧ 0 ≤ d.lstart ∧ d.lstart + d.lwidth ≤ d.ax.m - d.ax.p

/-- The ghosted ranges. -/
def granges (ds : List (MDir K)) : List (Int × Int) := ds.map fun d => (d.lstart, d.lwidth)

theorem local_ranges : ∀ (ds : List (MDir K)) (x : List Int), (∀ d ∈ ds, Ghosted d) → InBlock (ds.map MDir.lstart) (ds.map MDir.lwidth) x →
    ∃ rs, columnRanges false ds (granges ds) x = .ok rs ∧
      ∀ y, InBlock (ds.map MDir.lstart) (ds.map MDir.lwidth) y →
        (∀ (n : Nat) d i j, ds[n]? = some d → x[n]? = some i → y[n]? = some j → SameElement d i j) → y ∈ box rs
  | [], x, _, hx => by
    cases hx
    refine ⟨[], rfl, ?_⟩
    intro y hy _
    cases hy
    simp [box]
  | d :: ds, x, h, hx => by
    cases hx with
    | cons h1 h2 =>
      rename_i i is
      obtain ⟨w, l0, l1⟩ := h d (by simp)
      obtain ⟨rs, e, hr⟩ := local_ranges ds is (fun a ha => h a (by simp [ha])) h2
      refine ⟨(max (galF d.ax i) d.lstart, min (galL d.ax i) (d.lstart + d.lwidth - 1) + 1 - max (galF d.ax i) d.lstart) :: rs, ?_, ?_⟩
      · simp only [granges, List.map_cons] at e ⊢
        simp only [columnRanges, stencil_gal w, Res.bind, e]
      · intro y hy hc
        cases hy with
        | cons y1 y2 =>
          rename_i j js
          have g := gal_local w (i := i) (j := j) (by omega) (hc 0 d i j rfl rfl rfl)
          have ih := hr js y2 fun n d' i' j' a b c => hc (n+1) d' i' j' a b c
          rw [mem_box] at ih ⊢
          simp only [List.map_cons]
          refine .cons ?_ ih
          omega

theorem createLocal_eq (ds : List (MDir K)) (h : ∀ d ∈ ds, Ghosted d) : ∀ (L : List (List Int)),
    (∀ x ∈ L, InBlock (ds.map MDir.lstart) (ds.map MDir.lwidth) x) →
    ∃ rows, createLocalMat false ds L = .ok rows ∧ rows.map Prod.fst = L.map (index3D (granges ds)) ∧
      ∀ x ∈ L, ∃ rs, columnRanges false ds (granges ds) x = .ok rs ∧
        (index3D (granges ds) x, (box rs).map (index3D (granges ds))) ∈ rows
  | [], _ => ⟨[], rfl, rfl, by simp⟩
  | x :: L, hL => by
    obtain ⟨rows, e, e2, hrows⟩ := createLocal_eq ds h L fun a ha => hL a (by simp [ha])
    obtain ⟨rs, er, -⟩ := local_ranges ds x h (hL x (by simp))
    refine ⟨(index3D (granges ds) x, (box rs).map (index3D (granges ds))) :: rows, ?_, ?_, ?_⟩
    · have er' := er
      simp only [granges] at er'
      simp only [createLocalMat, columnIndices, er', Res.bind, e]
      rfl
    · simp [e2]
    · intro z hz
      rcases List.mem_cons.1 hz with rfl | hz
      · exact ⟨rs, er, by simp⟩
      · obtain ⟨r, a, b⟩ := hrows z hz
        exact ⟨r, a, by simp [b]⟩

/-- **C38** for the local matrix of a `MATIS` matrix (Galerkin, any axes, also periodic ones): one row for every ghosted node, under
its position in the ghosted box, with a column for every ghosted node that shares an element with it. -/
theorem C38_local_matrix (ds : List (MDir K)) (h : ∀ d ∈ ds, Ghosted d) :
    ∃ rows, createLocalMat false ds (box (granges ds)) = .ok rows ∧
      rows.map Prod.fst = (box (granges ds)).map (pos (granges ds)) ∧
      ∀ x, InBlock (ds.map MDir.lstart) (ds.map MDir.lwidth) x → ∃ cols, (pos (granges ds) x, cols) ∈ rows ∧
        ∀ y, InBlock (ds.map MDir.lstart) (ds.map MDir.lwidth) y →
          (∀ (n : Nat) d i j, ds[n]? = some d → x[n]? = some i → y[n]? = some j → SameElement d i j) →
          pos (granges ds) y ∈ cols := by
  have hbox : ∀ x, x ∈ box (granges ds) ↔ InBlock (ds.map MDir.lstart) (ds.map MDir.lwidth) x := by
    intro x
    unfold granges
    rw [mem_box, List.map_map, List.map_map]
    rfl
  have ep : ∀ y, index3D (granges ds) y = pos (granges ds) y := by
    intro y; unfold index3D pos; rw [natural_one]; rfl
  obtain ⟨rows, e, e2, hrows⟩ := createLocal_eq ds h (box (granges ds)) fun x hx => (hbox x).1 hx
  refine ⟨rows, e, ?_, ?_⟩
  · rw [e2]; exact List.map_congr_left fun y _ => ep y
  · intro x hx
    obtain ⟨rs, er, hm⟩ := hrows x ((hbox x).2 hx)
    obtain ⟨rs', er', hc⟩ := local_ranges ds x h hx
    rw [er] at er'
    simp only [Res.ok.injEq] at er'
    subst er'
    refine ⟨_, by rw [← ep x]; exact hm, ?_⟩
    intro y hy hyc
    exact List.mem_map.2 ⟨y, hc y hy hyc, ep y⟩

/-- With collocation on a periodic direction the ghosted range of a process can start before node zero (see the example after
`C21_ghosts_cover_closures_partial`), and creating the local matrix then reads before the beginning of the offsets. -/
theorem local_collocation_ub (d : MDir K) (hl : d.lstart < 0) (hw : 1 ≤ d.lwidth) :
    createLocalMat true [d] (box (granges [d])) = .ub := by
  have e : box (granges [d]) = [d.lstart] :: ((List.range (d.lwidth.toNat - 1)).map fun (k : Nat) => [d.lstart + ((k + 1 : Nat) : Int)]) := by
    have hn : d.lwidth.toNat = (d.lwidth.toNat - 1) + 1 := by omega
    simp only [granges, List.map_cons, List.map_nil, box, List.flatMap_cons, List.flatMap_nil, List.append_nil]
    conv_lhs => rw [hn, List.range_succ_eq_map]
    simp [List.map_map, Function.comp_def]
  rw [e]
  simp only [createLocalMat, columnIndices, List.map_cons, columnRanges, stencil, if_true, if_pos hl, Res.ofOption, Res.bind]

/-! ### C39 -/

theorem length_box_le : ∀ (l : List (Int × Int)) (b : List Int), List.Forall₂ (fun r c => r.2 ≤ c ∧ 0 ≤ c) l b →
    ((box l).length : Int) ≤ prod b
  | [], _, h => by cases h; simp [box, prod]
  | (s, w) :: l, _, h => by
    cases h with
    | cons h1 h2 =>
      rename_i c cs
      have ih := length_box_le l cs h2
      have e : (box ((s,w)::l)).length = (box l).length * w.toNat := by
        simp only [box, List.length_flatMap, List.length_map, List.length_range, List.map_const', List.sum_replicate, smul_eq_mul]
      have : ((box ((s,w)::l)).length : Int) = (w.toNat : Int) * ((box l).length : Int) := by rw [e]; push_cast; ring
      rw [this]
      simp only [prod]
      have h3 : (w.toNat : Int) ≤ c := by omega
      exact le_trans (mul_le_mul_of_nonneg_right h3 (by positivity)) (mul_le_mul_of_nonneg_left ih h1.2)

/-- Rows for which `ColumnIndices` is called: with the Galerkin method, functions of the direction. -/
def RowIn (colloc : Bool) (d : MDir K) (i : Int) : Prop := WF d.ax ∧ (colloc = false → 0 ≤ i ∧ i < d.ax.m - d.ax.p)

theorem columnRanges_le (colloc : Bool) : ∀ (ds : List (MDir K)) (g : List (Int × Int)) (x : List Int) (rs : List (Int × Int)),
    List.Forall₂ (RowIn colloc) ds x → columnRanges colloc ds g x = .ok rs →
    List.Forall₂ (fun r c => r.2 ≤ c ∧ 0 ≤ c) rs (ds.map fun d => 2 * d.ax.p + 1)
  | [], g, x, rs, hx, h => by
    cases hx
    cases g with
    | nil => simp only [columnRanges, Res.ok.injEq] at h; subst h; exact .nil
    | cons a g => simp [columnRanges] at h
  | d :: ds, g, x, rs, hx, h => by
    cases hx with
    | cons h1 h2 =>
      rename_i i is
      cases g with
      | nil => simp [columnRanges] at h
      | cons a g =>
        simp only [columnRanges] at h
        change (stencil colloc d.offset d.ax i >>= fun a_1 => _) = _ at h
        rw [Res.bind_eq_ok] at h
        obtain ⟨st, hst, h⟩ := h
        change (columnRanges colloc ds g is >>= fun rest => _) = _ at h
        rw [Res.bind_eq_ok] at h
        obtain ⟨rest, hrest, h⟩ := h
        simp only [Res.ok.injEq] at h
        subst h
        have ih := columnRanges_le colloc ds g is rest h2 hrest
        have hp := h1.1.legal.degree
        refine .cons ⟨?_, by dsimp only; omega⟩ ih
        have : st.2 - st.1 ≤ 2 * d.ax.p := by
          cases colloc with
          | false =>
            rw [stencil_gal h1.1] at hst
            simp only [Res.ok.injEq] at hst
            obtain ⟨i0, i1⟩ := h1.2 rfl
            have := gal_bounds h1.1 i0 i1
            rw [← hst]
            dsimp only
            omega
          | true =>
            simp only [stencil, if_true] at hst
            change (Res.ofOption _ >>= fun k => _) = _ at hst
            rw [Res.bind_eq_ok] at hst
            obtain ⟨k, -, hk⟩ := hst
            simp only [Res.ok.injEq] at hk
            rw [← hk]
            dsimp only
            omega
        dsimp only
        omega

/-- **C39.**  For all axes, all rows and whatever the ghosted range, the columns written for a row fit the buffer allocated for
them, `(2p₁+1)⋯(2p_d+1)` entries; with `bs` components, so do the unblocked columns in `bs` times as many entries. -/
theorem C39_buffer (colloc : Bool) (ds : List (MDir K)) (g : List (Int × Int)) (x : List Int) (cols : List Int)
    (hx : List.Forall₂ (RowIn colloc) ds x) (h : columnIndices colloc ds g x = .ok cols) :
    (cols.length : Int) ≤ maxnnz ds ∧
    ∀ (bs : Nat) (row : Int), ((unblock bs row cols).2.length : Int) ≤ maxnnz ds * bs ∧ (unblock bs row cols).1.length = bs := by
  have key : (cols.length : Int) ≤ maxnnz ds := by
    unfold columnIndices at h
    change (columnRanges colloc ds g x >>= fun rs => _) = _ at h
    rw [Res.bind_eq_ok] at h
    obtain ⟨rs, hrs, h⟩ := h
    simp only [Res.ok.injEq] at h
    subst h
    rw [List.length_map]
    have := length_box_le rs _ (columnRanges_le colloc ds g x rs hx hrs)
    unfold maxnnz
    rw [foldl_mul, one_mul]
    exact this
  refine ⟨key, fun bs row => ⟨?_, by simp [unblock]⟩⟩
  have e : (unblock bs row cols).2.length = cols.length * bs := by
    simp only [unblock, List.length_flatMap, List.length_map, List.length_range, List.map_const', List.sum_replicate, smul_eq_mul]
  rw [e]
  push_cast
  exact mul_le_mul_of_nonneg_right key (by positivity)

/-! ### C69 -/

theorem nodup_interval {S : List Int} (h : S.Nodup) (a : Int) (n : Nat) (hS : ∀ j ∈ S, a ≤ j ∧ j < a + n) : S.length ≤ n := by
  have hs : S ⊆ (List.range n).map fun (k : Nat) => a + (k:Int) := by
    intro j hj
    have := hS j hj
    exact List.mem_map.2 ⟨(j - a).toNat, by rw [List.mem_range]; omega, by omega⟩
  have := (List.subperm_of_subset h hs).length_le
  simpa using this

theorem nodup_outside {S : List Int} (h : S.Nodup) (a : Int) (n N : Nat) (ha : 0 ≤ a) (hN : a + n ≤ N)
    (hS : ∀ j ∈ S, (j < a ∨ j ≥ a + n) ∧ 0 ≤ j ∧ j < N) : S.length ≤ N - n := by
  have hs : S ⊆ ((List.range a.toNat).map fun (k : Nat) => (k:Int)) ++ (List.range (N - n - a.toNat)).map fun (k : Nat) => a + n + (k:Int) := by
    intro j hj
    have := hS j hj
    rw [List.mem_append]
    rcases this.1 with h1 | h1
    · left; exact List.mem_map.2 ⟨j.toNat, by rw [List.mem_range]; omega, by omega⟩
    · right; exact List.mem_map.2 ⟨(j - a - n).toNat, by rw [List.mem_range]; omega, by omega⟩
  have := (List.subperm_of_subset h hs).length_le
  simp only [List.length_append, List.length_map, List.length_range] at this
  omega

theorem nodup_filter_le {S cols : List Int} (h : S.Nodup) (q : Int → Bool) (hS : ∀ j ∈ S, j ∈ cols ∧ q j = true) :
    S.length ≤ (cols.filter q).length :=
  (List.subperm_of_subset h fun j hj => List.mem_filter.2 (hS j hj)).length_le

/-- **C69.**  For every storage format, block size, decomposition and row, whatever the columns (repeated or not): the different
columns inserted in the row that lie within the process's own rows are at most as many as were preallocated in the diagonal
part, and those outside at most as many as in the off-diagonal part. -/
theorem C69_preallocation (fmt : Format) (bs : Nat) (rstart : Int) (nbs Nbs : Nat) (N maxnnz row : Int) (cols : List Int)
    (h0 : 0 ≤ rstart) (h1 : rstart + nbs ≤ Nbs) (hrow : rstart ≤ row)
    (S : List Int) (hS : S.Nodup) (hin : ∀ j ∈ S, j ∈ (inserted fmt bs row cols).2) :
    ((∀ j ∈ S, rstart ≤ j ∧ j < rstart + nbs) → S.length ≤ (counts fmt bs rstart nbs Nbs N maxnnz row cols).1) ∧
    ((∀ j ∈ S, (j < rstart ∨ rstart + nbs ≤ j) ∧ 0 ≤ j ∧ j < Nbs) →
      S.length ≤ (counts fmt bs rstart nbs Nbs N maxnnz row cols).2) := by
  constructor
  · intro hd
    have b := nodup_interval hS rstart nbs hd
    have c : ∀ x : Nat × Nat, S.length ≤ x.1 → S.length ≤ (clip N maxnnz nbs Nbs x).1 := by
      intro x hx; unfold clip; split_ifs
      · exact le_min hx b
      · exact hx
    apply c
    cases fmt with
    | aij => exact nodup_filter_le hS _ fun j hj => ⟨hin j hj, by have := hd j hj; simp; omega⟩
    | baij => exact nodup_filter_le hS _ fun j hj => ⟨hin j hj, by have := hd j hj; simp; omega⟩
    | sbaij =>
      refine nodup_filter_le hS _ fun j hj => ⟨hin j hj, ?_⟩
      have := hd j hj
      have h2 := (List.mem_filter.1 (hin j hj)).2
      simp only [decide_eq_true_eq] at h2 ⊢
      omega
  · intro hd
    have b := nodup_outside hS rstart nbs Nbs h0 h1 hd
    have c : ∀ x : Nat × Nat, S.length ≤ x.2 → S.length ≤ (clip N maxnnz nbs Nbs x).2 := by
      intro x hx; unfold clip; split_ifs
      · exact le_min hx b
      · exact hx
    apply c
    cases fmt with
    | aij => exact nodup_filter_le hS _ fun j hj => ⟨hin j hj, by have := hd j hj; simp; omega⟩
    | baij => exact nodup_filter_le hS _ fun j hj => ⟨hin j hj, by have := hd j hj; simp; omega⟩
    | sbaij =>
      refine nodup_filter_le hS _ fun j hj => ⟨hin j hj, ?_⟩
      have := hd j hj
      have h2 := (List.mem_filter.1 (hin j hj)).2
      simp only [decide_eq_true_eq] at h2 ⊢
      omega

/-- With `bs` components, component `c` of the row couples with component `c'` of a column: both are inserted, in row `c + row·bs`
and column `c' + col·bs` (`aij`); the symmetric format keeps the upper triangle. -/
theorem C69_inserted (bs : Nat) (row : Int) (cols : List Int) (col : Int) (hc : col ∈ cols) :
    (∀ c c' : Nat, c < bs → c' < bs → (c:Int) + row * bs ∈ (inserted .aij bs row cols).1 ∧
      (c':Int) + col * bs ∈ (inserted .aij bs row cols).2) ∧
    (inserted .baij bs row cols).1 = [row] ∧ col ∈ (inserted .baij bs row cols).2 ∧
    (inserted .sbaij bs row cols).1 = [row] ∧ (row ≤ col ↔ col ∈ (inserted .sbaij bs row cols).2) := by
  refine ⟨?_, rfl, hc, rfl, ?_⟩
  · intro c c' h1 h2
    by_cases hb : bs = 1
    · subst hb
      have e1 : c = 0 := by omega
      have e2 : c' = 0 := by omega
      subst e1 e2
      simp [inserted, hc]
    · simp only [inserted, if_neg hb, unblock]
      exact ⟨List.mem_map.2 ⟨c, List.mem_range.2 h1, rfl⟩,
        List.mem_flatMap.2 ⟨col, hc, List.mem_map.2 ⟨c', List.mem_range.2 h2, rfl⟩⟩⟩
  · simp only [inserted, filterLower, List.mem_filter, decide_eq_true_eq, ge_iff_le]
    exact ⟨fun h => ⟨hc, h⟩, fun h => h.2⟩

/-! ### Concrete cases -/

/-- Directions of the two-dimensional example on four processes of Props/Layout.lean, third process. -/
example : ∃ L, stage1 exactGuess2 exactGuess3 false 4 3 [2,2] [exAx0, exAx1] = .ok L ∧ (dirsOf L fun _ => []).length = 2 ∧
    ∀ d ∈ dirsOf L fun _ => [], DirReady false d := by
  have e : stage1 exactGuess2 exactGuess3 false 4 3 [2,2] [exAx0, exAx1] =
      .ok ⟨[(Ax.setUp exAx0).2, (Ax.setUp exAx1).2], [2,2], [1,1], _⟩ := rfl
  refine ⟨_, e, rfl, ?_⟩
  apply C38_after_setup _ _ _ _ _ _ _ _ _ exAx_reached e
  · intro _ ax h
    simp only [List.mem_cons, List.not_mem_nil, or_false] at h
    rcases h with rfl | rfl <;> decide +kernel
  · intro _ ax h
    simp only [List.mem_cons, List.not_mem_nil, or_false] at h
    rcases h with rfl | rfl
    · intro _
      right
      have e1 : (Ax.setUp exAx0).2.nnp = 6 := by decide +kernel
      have e2 : (Ax.setUp exAx0).2.m = 10 := by decide +kernel
      rw [e1, e2]
      intro j h0 h1
      have : j = 0 ∨ j = 1 ∨ j = 2 ∨ j = 3 ∨ j = 4 := by omega
      rcases this with rfl | rfl | rfl | rfl | rfl <;> decide +kernel
    · intro hp; exact absurd hp (by decide +kernel)
  · intro hc; cases hc

/-- Knots `0 0 0 1 2 3 4 5 6 7`, degree 2, on a periodic axis: legal, accepted, but not repeating. -/
def exNR : Axis Rat := (Ax.step (Ax.step (Ax.step (Ax.create fun _ => 0) (.setPeriodic true)).2 (.setDegree 2)).2
  (.setKnots 9 fun i => if i ≤ 2 then 0 else ((i - 2 : Int) : Rat))).2

theorem exNR_reached : Reached exNR :=
  .step _ _ (.step _ _ (.step _ _ (.create _) (by decide +kernel)) (by decide +kernel)) (by decide +kernel)

/-- **C38 fails** as stated: on a periodic axis whose (accepted) knot vector does not repeat, node 1 shares the last element with
node 4, but the matrix created by the only process has no column for node 4 in the row of node 1. -/
theorem C38_periodic_refuted :
    ∃ ax : Axis Rat, Reached ax ∧ ∃ L, stage1 exactGuess2 exactGuess3 false 1 0 [-1] [ax] = .ok L ∧
      ∃ d, dirsOf L (fun _ => []) = [d] ∧ DirCoupled false d 1 4 ∧
      ∃ rows cols, createMat false [L.dir.map gdir] [d] = .ok rows ∧ (globalNumber [L.dir.map gdir] [d] [1], cols) ∈ rows ∧
        globalNumber [L.dir.map gdir] [d] [4] ∉ cols ∧
        ∀ cols', (globalNumber [L.dir.map gdir] [d] [1], cols') ∈ rows → cols' = cols := by
  have e : stage1 exactGuess2 exactGuess3 false 1 0 [-1] [exNR] = .ok ⟨[(Ax.setUp exNR).2], [1], [0],
      [⟨5, 0, 5, 7, 0, 7, 0, 7, 0, 5, 0, 5, 0, 7⟩]⟩ := rfl
  refine ⟨exNR, exNR_reached, _, e, _, rfl, ?_, ?_⟩
  · simp only [DirCoupled, Bool.false_eq_true, if_false]
    exact ⟨6, 6, 4, ⟨by decide +kernel, by decide +kernel, by decide +kernel⟩, by decide +kernel, by decide +kernel,
      by decide +kernel, by decide +kernel, ⟨by decide +kernel, by decide +kernel, 1, by decide +kernel⟩,
      ⟨by decide +kernel, by decide +kernel, 0, by decide +kernel⟩⟩
  · refine ⟨[(0, [3, 4, 0, 1, 2]), (1, [0, 1, 2, 3]), (2, [0, 1, 2, 3, 4]), (3, [1, 2, 3, 4, 0]), (4, [2, 3, 4, 0, 1])],
      [0,1,2,3], by decide +kernel, by decide +kernel, by decide +kernel, ?_⟩
    intro cols' h
    have g : globalNumber [List.map gdir [⟨5, 0, 5, 7, 0, 7, 0, 7, 0, 5, 0, 5, 0, 7⟩]] [(⟨(Ax.setUp exNR).2, [], 0, 5⟩ : MDir Rat)] [1] = 1 := by
      decide +kernel
    change (globalNumber [List.map gdir [⟨5, 0, 5, 7, 0, 7, 0, 7, 0, 5, 0, 5, 0, 7⟩]] [(⟨(Ax.setUp exNR).2, [], 0, 5⟩ : MDir Rat)] [1], cols') ∈ _ at h
    rw [g] at h
    simpa using h

theorem exAx_wf : ∀ ax ∈ [(Ax.setUp exAx0).2, (Ax.setUp exAx1).2], WF ax := by
  have e : stage1 exactGuess2 exactGuess3 false 4 3 [2,2] [exAx0, exAx1] =
      .ok ⟨[(Ax.setUp exAx0).2, (Ax.setUp exAx1).2], [2,2], [1,1], _⟩ := rfl
  exact (stage1_all exAx_reached e).1

/-- Collocation on the same axes, first process of four. -/
example : ∃ o0 o1 : List Int, ∀ d ∈ [(⟨(Ax.setUp exAx0).2, o0, 0, 3⟩ : MDir Rat), ⟨(Ax.setUp exAx1).2, o1, 0, 2⟩], DirReady true d := by
  obtain ⟨b0, -, e0, -⟩ := Quad.C68_collocation_tables (fun _ _ => ()) (Ax.setUp exAx0).2 (exAx_wf _ (by simp))
  obtain ⟨b1, -, e1, -⟩ := Quad.C68_collocation_tables (fun _ _ => ()) (Ax.setUp exAx1).2 (exAx_wf _ (by simp))
  refine ⟨b0.elems.map Quad.Elem.offset, b1.elems.map Quad.Elem.offset, ?_⟩
  intro d hd
  simp only [List.mem_cons, List.not_mem_nil, or_false] at hd
  rcases hd with rfl | rfl
  · exact ⟨exAx_wf _ (by simp), ⟨by simp, by simp, (by decide +kernel : (0:Int) + 3 ≤ (Ax.setUp exAx0).2.nnp)⟩,
      fun h => absurd h (by decide), fun _ => ⟨_, b0, e0, rfl⟩⟩
  · exact ⟨exAx_wf _ (by simp), ⟨by simp, by simp, (by decide +kernel : (0:Int) + 2 ≤ (Ax.setUp exAx1).2.nnp)⟩,
      fun h => absurd h (by decide), fun _ => ⟨_, b1, e1, rfl⟩⟩

/-- A row to which `C39_buffer` applies (the periodic direction has five columns, the other two). -/
example : List.Forall₂ (RowIn false) [(⟨(Ax.setUp exAx0).2, [], 3, 3⟩ : MDir Rat), ⟨(Ax.setUp exAx1).2, [], 1, 2⟩] [4, 2] ∧
    columnIndices false [(⟨(Ax.setUp exAx0).2, [], 3, 3⟩ : MDir Rat), ⟨(Ax.setUp exAx1).2, [], 1, 2⟩] [(1, 7), (0, 3)] [4, 2] =
      .ok [8, 9, 10, 11, 12, 15, 16, 17, 18, 19] ∧
    maxnnz [(⟨(Ax.setUp exAx0).2, [], 3, 3⟩ : MDir Rat), ⟨(Ax.setUp exAx1).2, [], 1, 2⟩] = 15 := by
  refine ⟨.cons ⟨exAx_wf _ (by simp), fun _ => ⟨by decide +kernel, by decide +kernel⟩⟩ (.cons ⟨exAx_wf _ (by simp), fun _ => ⟨by decide +kernel, by decide +kernel⟩⟩ .nil),
    by decide +kernel, by decide +kernel⟩

/-- Ghosted directions to which `C38_local_matrix` applies. -/
example : ∀ d ∈ [(⟨(Ax.setUp exAx0).2, [], 3, 5⟩ : MDir Rat), ⟨(Ax.setUp exAx1).2, [], 1, 2⟩], Ghosted d := by
  intro d hd
  simp only [List.mem_cons, List.not_mem_nil, or_false] at hd
  rcases hd with rfl | rfl
  · exact ⟨exAx_wf _ (by simp), by decide +kernel, by decide +kernel⟩
  · exact ⟨exAx_wf _ (by simp), by decide +kernel, by decide +kernel⟩

/-- A row with repeated columns: three different columns of its own and two others, in a block of four rows of ten. -/
example : counts .aij 1 2 4 10 10 100 3 [2, 3, 2, 4, 9, 0, 9] = (4, 3) ∧ counts .aij 1 2 4 6 6 100 3 [2, 3, 2, 4, 0, 1, 1, 0] = (4, 2) ∧
    counts .sbaij 2 2 4 10 10 100 3 [2, 3, 2, 4, 9, 0, 9] = (2, 2) := by decide +kernel

/-- **C38 fails** for local matrices with collocation on periodic axes: set-up succeeds, and creating the matrix reads out of
bounds, whatever the offsets. -/
theorem C38_local_collocation_refuted :
    ∃ ax : Axis Rat, Reached ax ∧ ∃ L, stage1 exactGuess2 exactGuess3 true 1 0 [-1] [ax] = .ok L ∧
      ∃ d, L.dir = [d] ∧ ∀ off ax', createLocalMat true [(⟨ax', off, d.nodeGstart, d.nodeGwidth⟩ : MDir Rat)]
        (box (granges [(⟨ax', off, d.nodeGstart, d.nodeGwidth⟩ : MDir Rat)])) = .ub := by
  refine ⟨exP4, exP4_reached, ?_⟩
  obtain ⟨L, e, hd, ha⟩ := summary_ok (x := stage1 exactGuess2 exactGuess3 true 1 0 [-1] [exP4])
    (d := [⟨1, 0, 1, 5, 0, 5, 0, 5, 2, 1, 0, 1, -2, 5⟩]) (a := [(4, 9, 1)]) (by decide +kernel)
  exact ⟨L, e, _, hd, fun off ax' => local_collocation_ub _ (by dsimp only; omega) (by dsimp only; omega)⟩

end PetIGA.Mat
