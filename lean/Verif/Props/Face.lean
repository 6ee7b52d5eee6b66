import Verif.Lemmas.Face

/-!
C119: what the boundary callbacks see on a side of the domain, and the values a field takes there.
-/
set_option linter.unusedSectionVars false

namespace PetIGA.Itg
open PetIGA.Quad PetIGA.Drv PetIGA.Spec PetIGA.Ax PetIGA.Lay PetIGA.Asm PetIGA.Rule PetIGA.Grid PetIGA.Part PetIGA.Ker PetIGA.PCA
open Polynomial

variable {g2 : Guess2} {g3 : Guess3} {size : Int} {procs : List Int} {axes : List (Axis ℝ)} {Ls : List (Layout ℝ)}

theorem setup_open {ds : List (Direction Line)} (S : Setup g2 g3 false size procs axes (ds.map Direction.ax) Ls) : ∀ δ ∈ ds, OpenEnds δ.ax :=
  fun δ hδ => (S.cond δ.ax (List.mem_map_of_mem hδ)).1 rfl

/-- **C119**, where the points of a side are and what the functions are there: the coordinate across the side is the end of the
domain, the others are the points of the rules; without weights the functions of the element are the products of its B-splines at those
coordinates. -/
theorem C119_points {ds : List (Direction Line)} (S : Setup g2 g3 false size procs axes (ds.map Direction.ax) Ls)
    (hT : ∀ δ ∈ ds, δ.Tabulated) (hs : ∀ δ ∈ ds, IsSpline δ) {nsd : Nat}
    (c : PtIn ds.length nsd (Fin (nenOf (ds.map Direction.ax)))) {e : List Int} (he : InBox (ds.map fun δ => δ.ax.nel) e)
    (axis : Fin ds.length) (side : Bool) (hside : e[(axis:Nat)]? = some (sideElem ds[axis].ax side)) {mem} {qs}
    (h : tabulateFace c (ds.map Direction.B) (ds.map fun d => endPoints d.ax) e axis side mem = .ok qs) :
    ∀ q ∈ qs, q.data.u.length = ds.length ∧ q.data.u[(axis:Nat)]? = some (sideEnd ds[axis].ax side) ∧
      (∀ i δ e0 x, i ≠ (axis:Nat) → ds[i]? = some δ → e[i]? = some e0 → q.data.u[i]? = some x →
        ∃ ξ ∈ δ.X, x = (ξ + 1) * (((cell δ.ax e0).2 - (cell δ.ax e0).1) / 2) + (cell δ.ax e0).1) ∧
      ∀ t, InBox (nens (ds.map Direction.ax)) t → ∀ a : Fin (nenOf (ds.map Direction.ax)), (a:Int) = flat (nens (ds.map Direction.ax)) t →
        (c.rational = none → q.data.shape.t0 a = evalProd (bpolys (ds.map Direction.ax) e (List.replicate ds.length 0) t) q.data.u) := by
  obtain ⟨h1, h3, hw⟩ := setup_facts S
  have hδ : ds[(axis:Nat)]? = some ds[axis] := by simp
  have ho := setup_open S ds[axis] (by simp)
  have hF := face_tabulated rfl h1 h3 hT hs hw c he mem hδ ho hside h
  intro q hq
  obtain ⟨i, hi, rfl⟩ := List.getElem_of_mem hq
  obtain ⟨hl, hF⟩ := List.forall₂_iff_get.1 hF
  obtain ⟨N, m, o, hN, hto, hqe⟩ := hF i (by omega) hi
  simp only [List.get_eq_getElem] at hqe hto hN
  rw [hqe]
  obtain ⟨f1, f2, f3, -⟩ := face_point hw he hδ ho hside (mem_tensorPoints (List.getElem_mem (h := by omega) : (tensorPoints (faceLines ds e axis side))[i] ∈ _))
  refine ⟨by simpa using (sees_value f1).1, f2, fun j δ e0 x hj g1 g2 g3 => ?_, fun t ht a ha hr => ?_⟩
  · obtain ⟨xw, hx, rfl⟩ := f3 j δ e0 x hj g1 g2 g3
    exact ⟨xw.1, (List.of_mem_zip hx).1, rfl⟩
  · obtain ⟨b1, b2⟩ := tabulate_basis hto
    dsimp only
    rw [b2]
    unfold basisOf
    rw [show (atSide c axis side).rational = none from hr]
    exact (hN t ht a ha).1

/-- What the trace theorems share. -/
theorem face_core {ds : List (Direction Line)} (S : Setup g2 g3 false size procs axes (ds.map Direction.ax) Ls)
    (hT : ∀ δ ∈ ds, δ.Tabulated) (hs : ∀ δ ∈ ds, IsSpline δ) (hX : PointsInside ds) {nsd : Nat}
    (c : PtIn ds.length nsd (Fin (nenOf (ds.map Direction.ax)))) (hR : PositiveWeights c) {e : List Int}
    (he : InBox (ds.map fun δ => δ.ax.nel) e) (axis : Fin ds.length) (side : Bool) (hc : ClampedAt ds[axis].ax side)
    (hper : ds[axis].ax.periodic = false) (hside : e[(axis:Nat)]? = some (sideElem ds[axis].ax side)) {mem} {qs}
    (h : tabulateFace c (ds.map Direction.B) (ds.map fun d => endPoints d.ax) e axis side mem = .ok qs) :
    ∀ q ∈ qs, (∀ a, 0 ≤ q.data.shape.t0 a) ∧ ∑ a, q.data.shape.t0 a = 1 ∧
      (∀ t, InBox (nens (ds.map Direction.ax)) t → ∀ a : Fin (nenOf (ds.map Direction.ax)), (a:Int) = flat (nens (ds.map Direction.ax)) t →
        (nodeOf false (ds.map Direction.ax) e t)[(axis:Nat)]? ≠ some (sideNode ds[axis].ax side) → q.data.shape.t0 a = 0) ∧
      ∀ C, c.geometry = some C → ∀ l, q.data.arrays.mapX.t0 l = ∑ a, C l a * q.data.shape.t0 a := by
  obtain ⟨h1, h3, hw⟩ := setup_facts S
  have hδ : ds[(axis:Nat)]? = some ds[axis] := by simp
  have ho := setup_open S ds[axis] (by simp)
  have hwa := hw ds[axis] (by simp)
  have hF := face_tabulated rfl h1 h3 hT hs hw c he mem hδ ho hside h
  intro q hq
  obtain ⟨i, hi, rfl⟩ := List.getElem_of_mem hq
  obtain ⟨hl, hF⟩ := List.forall₂_iff_get.1 hF
  obtain ⟨N, m, o, hN, hto, hqe⟩ := hF i (by omega) hi
  simp only [List.get_eq_getElem] at hqe hto hN
  rw [hqe]
  obtain ⟨f1, f2, f3, f4⟩ := face_point hw he hδ ho hside (mem_tensorPoints (List.getElem_mem (h := by omega) : (tensorPoints (faceLines ds e axis side))[i] ∈ _))
  obtain ⟨b1, b2⟩ := tabulate_basis hto
  obtain ⟨n1, n2, n3⟩ := basis_hull hw (atSide c axis side) (fun W hW => hR W hW) he (f4 hX) (fun t ht a ha => (hN t ht a ha).1)
  dsimp only
  rw [b2]
  refine ⟨n1, n2, fun t ht a ha hz => n3 a ?_, fun C hC l => ?_⟩
  · rw [(hN t ht a ha).1]
    have htl : t.length = ds.length := by rw [PetIGA.Grid.inBox_length ht]; simp [nens]
    obtain ⟨r, hr⟩ : ∃ r, t[(axis:Nat)]? = some r := ⟨_, List.getElem?_eq_getElem (by rw [htl]; exact axis.isLt)⟩
    have hax : (ds.map Direction.ax)[(axis:Nat)]? = some ds[axis].ax := by simp
    have hrng : 0 ≤ r ∧ r < ds[axis].ax.p + 1 := by
      obtain ⟨hlen, hb⟩ := List.forall₂_iff_get.1 ht
      have := hb axis (by simp [nens]) (by rw [htl]; exact axis.isLt)
      rw [List.getElem?_eq_getElem (by rw [htl]; exact axis.isLt), Option.some.injEq] at hr
      simp only [List.get_eq_getElem, hr] at this
      simpa [nens] using this
    refine evalProd_zero (bpolys_get hax hside (o := 0) (by simp) hr) f2 ?_
    exact bpoly_side hwa ho hc hrng.1 (by omega) fun hrs => hz (node_side hwa ho hper hax hside (by rw [hr, hrs]))
  · have hg : ∀ m', (geometryMap c.order C (basisOf (atSide c axis side) N) m').t0 l = ∑ a, C l a * (basisOf (atSide c axis side) N).t0 a := by
      intro m'
      unfold geometryMap
      dsimp only
      split_ifs <;> rfl
    rw [← hg m.mapX]
    unfold Ker.tabulate at hto
    rw [show (atSide c axis side).geometry = some C from hC] at hto
    dsimp only at hto
    split at hto
    · rename_i hd
      subst hd
      dsimp only at hto
      split_ifs at hto
      all_goals split at hto <;> (simp only [Res.ok.injEq] at hto; rw [← hto]; rfl)
    · split at hto <;> (simp only [Res.ok.injEq] at hto; rw [← hto]; rfl)

/-- `z` is a node of element `e` on that side of the grid of nodes. -/
def NodeOnSide (axs : List (Axis ℝ)) (e : List Int) (axis : Nat) (n : Int) (z : List Int) : Prop := NodeOf axs e z ∧ z[axis]? = some n

/-- **C119**, the trace of a field: on a side where the knot vector is clamped, what the boundary callbacks compute from the functions
only depends on the values of the field at the nodes of the side, and stays between them. -/
theorem C119_trace {ds : List (Direction Line)} (S : Setup g2 g3 false size procs axes (ds.map Direction.ax) Ls)
    (hT : ∀ δ ∈ ds, δ.Tabulated) (hs : ∀ δ ∈ ds, IsSpline δ) (hX : PointsInside ds) {nsd : Nat}
    (c : PtIn ds.length nsd (Fin (nenOf (ds.map Direction.ax)))) (hR : PositiveWeights c) {e : List Int}
    (he : InBox (ds.map fun δ => δ.ax.nel) e) (axis : Fin ds.length) (side : Bool) (hc : ClampedAt ds[axis].ax side)
    (hper : ds[axis].ax.periodic = false) (hside : e[(axis:Nat)]? = some (sideElem ds[axis].ax side)) {mem} {qs}
    (h : tabulateFace c (ds.map Direction.B) (ds.map fun d => endPoints d.ax) e axis side mem = .ok qs) :
    ∀ q ∈ qs, ∀ (u : List Int → Nat → ℝ) (k : Nat),
      (∀ u' : List Int → Nat → ℝ, (∀ z, NodeOnSide (ds.map Direction.ax) e axis (sideNode ds[axis].ax side) z → u z k = u' z k) →
        combine (ds.map Direction.ax) e q.data.shape.t0 u k = combine (ds.map Direction.ax) e q.data.shape.t0 u' k) ∧
      ∀ lo hi, (∀ z, NodeOnSide (ds.map Direction.ax) e axis (sideNode ds[axis].ax side) z → lo ≤ u z k ∧ u z k ≤ hi) →
        lo ≤ combine (ds.map Direction.ax) e q.data.shape.t0 u k ∧ combine (ds.map Direction.ax) e q.data.shape.t0 u k ≤ hi := by
  intro q hq u k
  obtain ⟨n1, n2, n3, -⟩ := face_core S hT hs hX c hR he axis side hc hper hside h q hq
  choose t ht hta using local_index (ds.map Direction.ax)
  have hcf : ∀ u : List Int → Nat → ℝ, combine (ds.map Direction.ax) e q.data.shape.t0 u k =
      ∑ a, u (nodeOf false (ds.map Direction.ax) e (t a)) k * q.data.shape.t0 a := fun u =>
    combine_fin (ds.map Direction.ax) rfl e _ (fun a => u (nodeOf false (ds.map Direction.ax) e (t a)) k) u k (fun s hs a ha => by
      rw [show t a = s from flat_inj (ht a) hs (by rw [← hta a, ha])])
  have hor : ∀ a, NodeOnSide (ds.map Direction.ax) e axis (sideNode ds[axis].ax side) (nodeOf false (ds.map Direction.ax) e (t a)) ∨ q.data.shape.t0 a = 0 := by
    intro a
    by_cases hz : (nodeOf false (ds.map Direction.ax) e (t a))[(axis:Nat)]? = some (sideNode ds[axis].ax side)
    · exact .inl ⟨⟨t a, ht a, rfl⟩, hz⟩
    · exact .inr (n3 (t a) (ht a) a (hta a) hz)
  refine ⟨fun u' hu => ?_, fun lo hi hu => ?_⟩
  · rw [hcf, hcf]
    refine Finset.sum_congr rfl fun a _ => ?_
    rcases hor a with hz | hz
    · rw [hu _ hz]
    · rw [hz]; simp
  · rw [hcf]
    constructor
    · calc lo = ∑ a, lo * q.data.shape.t0 a := by rw [← Finset.mul_sum, n2, mul_one]
        _ ≤ _ := Finset.sum_le_sum fun a _ => by
          rcases hor a with hz | hz
          · exact mul_le_mul_of_nonneg_right (hu _ hz).1 (n1 a)
          · rw [hz]; simp
    · calc _ ≤ ∑ a, hi * q.data.shape.t0 a := Finset.sum_le_sum fun a _ => by
            rcases hor a with hz | hz
            · exact mul_le_mul_of_nonneg_right (hu _ hz).2 (n1 a)
            · rw [hz]; simp
        _ = hi := by rw [← Finset.mul_sum, n2, mul_one]

/-- **C119**, prescribed values: if the nodes of the side have the value `v`, as after `IGASetBoundaryValue`, the field is `v` at
every point of the side. -/
theorem C119_constant {ds : List (Direction Line)} (S : Setup g2 g3 false size procs axes (ds.map Direction.ax) Ls)
    (hT : ∀ δ ∈ ds, δ.Tabulated) (hs : ∀ δ ∈ ds, IsSpline δ) (hX : PointsInside ds) {nsd : Nat}
    (c : PtIn ds.length nsd (Fin (nenOf (ds.map Direction.ax)))) (hR : PositiveWeights c) {e : List Int}
    (he : InBox (ds.map fun δ => δ.ax.nel) e) (axis : Fin ds.length) (side : Bool) (hc : ClampedAt ds[axis].ax side)
    (hper : ds[axis].ax.periodic = false) (hside : e[(axis:Nat)]? = some (sideElem ds[axis].ax side)) {mem} {qs}
    (h : tabulateFace c (ds.map Direction.B) (ds.map fun d => endPoints d.ax) e axis side mem = .ok qs)
    (u : List Int → Nat → ℝ) (k : Nat) (v : ℝ) (hu : ∀ z, z[(axis:Nat)]? = some (sideNode ds[axis].ax side) → u z k = v) :
    ∀ q ∈ qs, combine (ds.map Direction.ax) e q.data.shape.t0 u k = v := by
  intro q hq
  have := (C119_trace S hT hs hX c hR he axis side hc hper hside h q hq u k).2 v v (fun z hz => by rw [hu z hz.2]; exact ⟨le_rfl, le_rfl⟩)
  exact le_antisymm this.2 this.1

/-- **C119**, the geometry: the position of a point of a clamped side is in the convex hull of the control points of the side. -/
theorem C119_geometry {ds : List (Direction Line)} (S : Setup g2 g3 false size procs axes (ds.map Direction.ax) Ls)
    (hT : ∀ δ ∈ ds, δ.Tabulated) (hs : ∀ δ ∈ ds, IsSpline δ) (hX : PointsInside ds) {nsd : Nat}
    (c : PtIn ds.length nsd (Fin (nenOf (ds.map Direction.ax)))) (hR : PositiveWeights c) (C) (hC : c.geometry = some C) {e : List Int}
    (he : InBox (ds.map fun δ => δ.ax.nel) e) (axis : Fin ds.length) (side : Bool) (hc : ClampedAt ds[axis].ax side)
    (hper : ds[axis].ax.periodic = false) (hside : e[(axis:Nat)]? = some (sideElem ds[axis].ax side)) {mem} {qs}
    (h : tabulateFace c (ds.map Direction.B) (ds.map fun d => endPoints d.ax) e axis side mem = .ok qs)
    (X : List Int → Nat → ℝ) (hN : OnNet (ds.map Direction.ax) e C X) :
    ∀ q ∈ qs, q.data.arrays.mapX.t0 ∈
      convexHull ℝ {x : Fin nsd → ℝ | ∃ z, NodeOnSide (ds.map Direction.ax) e axis (sideNode ds[axis].ax side) z ∧ ∀ l : Fin nsd, x l = X z l} := by
  intro q hq
  obtain ⟨n1, n2, n3, n4⟩ := face_core S hT hs hX c hR he axis side hc hper hside h q hq
  classical
  have hor : ∀ a, q.data.shape.t0 a ≠ 0 → (fun l => C l a) ∈
      {x : Fin nsd → ℝ | ∃ z, NodeOnSide (ds.map Direction.ax) e axis (sideNode ds[axis].ax side) z ∧ ∀ l : Fin nsd, x l = X z l} := by
    intro a ha
    obtain ⟨t, ht, hta⟩ := local_index (ds.map Direction.ax) a
    refine ⟨_, ⟨⟨t, ht, rfl⟩, ?_⟩, fun l => hN t ht a hta l⟩
    by_contra hz
    exact ha (n3 t ht a hta hz)
  have key : q.data.arrays.mapX.t0 = ∑ a with q.data.shape.t0 a ≠ 0, q.data.shape.t0 a • (fun l => C l a) := by
    funext l
    rw [n4 C hC l, Finset.sum_apply, Finset.sum_filter]
    refine Finset.sum_congr rfl fun a _ => ?_
    split_ifs with ha
    · rw [Pi.smul_apply, smul_eq_mul, mul_comm]
    · rw [not_not.1 ha]; simp
  rw [key]
  refine (convex_convexHull ℝ _).sum_mem (fun a _ => n1 a) ?_ fun a ha => subset_convexHull ℝ _ (hor a (Finset.mem_filter.1 ha).2)
  rw [← n2, Finset.sum_filter]
  exact Finset.sum_congr rfl fun a _ => by split_ifs with ha <;> simp_all

/-! ### Integrals over a side -/

theorem tensor_face : ∀ {ds : List (Direction Line)} {e : List Int} {axis : Nat} {side : Bool} {δ : Direction Line} {e0 : Int},
    ds.length = e.length → ds[axis]? = some δ → e[axis]? = some e0 →
    tensorPoints (faceLines ds e axis side) = (tensorPoints (lines (ds.eraseIdx axis) (e.eraseIdx axis))).map fun pts =>
      pts.insertIdx axis ⟨sideEnd δ.ax side, 1, 1, some (δ.cb (sp δ.ax e0) (sideEnd δ.ax side))⟩
  | [], _, _, _, _, _, _, h, _ => by simp at h
  | _ :: _, [], _, _, _, _, h, _, _ => by simp at h
  | d :: ds, i :: is, 0, side, δ, e0, hl, h1, h2 => by
    simp only [List.getElem?_cons_zero, Option.some.injEq] at h1 h2
    subst h1; subst h2
    simp only [faceLines, tensorPoints, List.map_cons, List.map_nil, List.eraseIdx_zero, List.tail_cons, List.insertIdx_zero]
    induction tensorPoints (lines ds is) with
    | nil => rfl
    | cons a l ih => rw [List.flatMap_cons, ih]; rfl
  | d :: ds, i :: is, a+1, side, δ, e0, hl, h1, h2 => by
    simp only [List.getElem?_cons_succ] at h1 h2
    have ih := tensor_face (side := side) (by simpa using hl) h1 h2
    simp only [faceLines, tensorPoints, List.eraseIdx_cons_succ]
    rw [ih, show lines (d :: ds.eraseIdx a) (i :: is.eraseIdx a) = (d.X.zip d.W).map (ptOf d (sp d.ax i)) :: lines (ds.eraseIdx a) (is.eraseIdx a) from rfl]
    simp only [tensorPoints, List.map_flatMap, List.flatMap_map, List.map_map, Function.comp_def, List.insertIdx_succ_cons]

theorem prod_insert {l : List ℝ} {i : Nat} (hi : i ≤ l.length) : (l.insertIdx i 1).prod = l.prod := by
  rw [List.prod_insertIdx hi (fun a _ => Commute.one_left a), one_mul]

theorem map_insertIdx {α β : Type} (f : α → β) : ∀ (l : List α) (i : Nat) (a : α), (l.insertIdx i a).map f = (l.map f).insertIdx i (f a)
  | _, 0, _ => by simp
  | [], i+1, _ => by simp
  | b :: l, i+1, a => by simp [map_insertIdx f l i a]

theorem insert_get {α : Type} : ∀ (l : List α) (i : Nat) (a : α), i ≤ l.length → (l.insertIdx i a)[i]? = some a
  | l, 0, a, _ => by simp
  | [], i+1, a, h => by simp at h
  | b :: l, i+1, a, h => by simpa using insert_get l i a (by simpa using h)

theorem insert_erase {α : Type} : ∀ (l : List α) (i : Nat) (a : α), i ≤ l.length → (l.insertIdx i a).eraseIdx i = l
  | l, 0, a, _ => by simp
  | [], i+1, a, h => by simp at h
  | b :: l, i+1, a, h => by simpa using insert_erase l i a (by simpa using h)

theorem inBox_insert : ∀ {ns e : List Int} {i : Nat} {n e0 : Int}, ns[i]? = some n → InBox (ns.eraseIdx i) e → 0 ≤ e0 → e0 < n →
    InBox ns (e.insertIdx i e0)
  | [], _, _, _, _, h, _, _, _ => by simp at h
  | m :: ns, e, 0, n, e0, h, he, h0, h1 => by
    simp only [List.getElem?_cons_zero, Option.some.injEq] at h
    subst h
    simp only [List.eraseIdx_zero, List.tail_cons] at he
    exact .cons ⟨h0, h1⟩ he
  | m :: ns, _, i+1, n, e0, h, he, h0, h1 => by
    simp only [List.getElem?_cons_succ] at h
    rw [List.eraseIdx_cons_succ] at he
    cases he with
    | cons ha he =>
    rw [List.insertIdx_succ_cons]
    exact .cons ha (inBox_insert h he h0 h1)

/-- The element of the side `side` of direction `axis` with the indices `e` in the other directions. -/
def onSide (ax : Axis ℝ) (axis : Nat) (side : Bool) (e : List Int) : List Int := e.insertIdx axis (sideElem ax side)

/-- **C119**, integrals over a side: without geometry, the sum over the elements of a side and their points of `f` times weight and
Jacobian is the integral of `f` over that side of the parametric domain, for every `f` that is on each element of the side a
polynomial within the degrees the rules of the other directions integrate exactly. -/
theorem C119_exact {ds : List (Direction Line)} (S : Setup g2 g3 false size procs axes (ds.map Direction.ax) Ls)
    (hT : ∀ δ ∈ ds, δ.Tabulated) (hs : ∀ δ ∈ ds, IsSpline δ) (hX : PointsInside ds) {nsd : Nat}
    (c : List Int → PtIn ds.length nsd (Fin (nenOf (ds.map Direction.ax)))) (hgeo : ∀ e, (c e).geometry = none)
    (axis : Fin ds.length) (side : Bool) {degs : List Nat}
    (hx : List.Forall₂ (fun d n => ExactRule n d.X d.W) (ds.eraseIdx axis) degs) (f : List ℝ → ℝ)
    (hf : ∀ e, InBox ((ds.eraseIdx axis).map fun δ => δ.ax.nel) e →
      PolyOn (InClosedBox (cellBox ((ds.eraseIdx axis).map Direction.ax) e)) degs fun ys => f (ys.insertIdx axis (sideEnd ds[axis].ax side)))
    (mem : List Int → Nat → Tab ℝ ds.length Nat × PtOut ds.length nsd (Fin (nenOf (ds.map Direction.ax))))
    (qs : List Int → List (QP ℝ (PtData ds.length nsd (nenOf (ds.map Direction.ax)))))
    (h : ∀ e, InBox ((ds.eraseIdx axis).map fun δ => δ.ax.nel) e →
      tabulateFace (c e) (ds.map Direction.B) (ds.map fun d => endPoints d.ax) (onSide ds[axis].ax axis side e) axis side (mem e) = .ok (qs e)) :
    ((indices ((ds.eraseIdx axis).map fun δ => δ.ax.nel)).map fun e => ((qs e).map fun q => f q.data.u * (q.detJac * q.weight)).sum).sum =
      integralBox ((ds.eraseIdx axis).map fun δ => domain δ.ax) fun ys => f (ys.insertIdx axis (sideEnd ds[axis].ax side)) := by
  obtain ⟨h1, h3, hw⟩ := setup_facts S
  have hδ : ds[(axis:Nat)]? = some ds[axis] := by simp
  have ho := setup_open S ds[axis] (by simp)
  obtain ⟨-, sn0, sn1⟩ := sideElem_sp (hw ds[axis] (by simp)) ho side
  have hmem : ∀ δ ∈ ds.eraseIdx axis, δ ∈ ds := fun δ hd => List.mem_of_mem_eraseIdx hd
  have hlen : (ds.eraseIdx axis).length + 1 = ds.length := by rw [List.length_eraseIdx]; simp; omega
  have ha := axis.isLt
  classical
  choose! T t1 t2 using hf
  have e2 := integralBox_terms ((ds.eraseIdx axis).map Direction.ax) (by intro ax hax; obtain ⟨δ, hd, rfl⟩ := List.mem_map.1 hax; exact hw δ (hmem δ hd))
    (fun ys => f (ys.insertIdx axis (sideEnd ds[axis].ax side))) (fun e => (T e).map fun P => (1, P))
    (by
      intro e he cP hc
      rw [List.map_map] at he
      obtain ⟨P, hP, rfl⟩ := List.mem_map.1 hc
      have := (t1 e he P hP).length_eq
      rw [this, ← hx.length_eq]
      simp)
    (by
      intro e he xs hxs
      rw [List.map_map] at he
      simp only [List.map_map, Function.comp_def, one_mul]
      exact t2 e he xs (hxs.imp fun ab x h => ⟨h.1.le, h.2.le⟩))
  simp only [List.map_map, Function.comp_def] at e2
  rw [e2]
  congr 1
  refine List.map_congr_left fun e he => ?_
  have he := (mem_indices _ e).1 he
  have hel : e.length + 1 = ds.length := by rw [PetIGA.Grid.inBox_length he]; simpa using hlen
  have hns : (ds.map fun δ => δ.ax.nel)[(axis:Nat)]? = some ds[axis].ax.nel := by simp
  have heB : InBox (ds.map fun δ => δ.ax.nel) (onSide ds[axis].ax axis side e) :=
    inBox_insert hns (by rw [List.eraseIdx_map]; exact he) sn0 sn1
  have hse : (onSide ds[axis].ax axis side e)[(axis:Nat)]? = some (sideElem ds[axis].ax side) := insert_get _ _ _ (by omega)
  have hF := face_tabulated rfl h1 h3 hT hs hw (c e) heB (mem e) hδ ho hse (h e he)
  rw [tensor_face (by unfold onSide; rw [List.length_insertIdx_of_le_length (by omega)]; omega) hδ hse, show (onSide ds[axis].ax axis side e).eraseIdx axis = e from insert_erase _ _ _ (by omega)] at hF
  have hval : (qs e).map (fun q => f q.data.u * (q.detJac * q.weight)) =
      (tensorPoints (lines (ds.eraseIdx axis) e)).map fun pts => f ((pts.map Pt.x).insertIdx axis (sideEnd ds[axis].ax side)) * ((pts.map Pt.J).prod * (pts.map Pt.w).prod) := by
    symm
    rw [List.forall₂_map_left_iff] at hF
    refine List.ext_getElem (by simpa using hF.length_eq) fun i i1 i2 => ?_
    obtain ⟨hl, hF⟩ := List.forall₂_iff_get.1 hF
    have i3 : i < (tensorPoints (lines (ds.eraseIdx axis) e)).length := by simpa using i1
    obtain ⟨N, m, o, hN, hto, hqe⟩ := hF i i3 (by simpa using i2)
    simp only [List.get_eq_getElem] at hqe hto hN
    simp only [List.getElem_map]
    rw [hqe]
    have hpl : (tensorPoints (lines (ds.eraseIdx axis) e))[i].length + 1 = ds.length := by
      have := (mem_tensorPoints (List.getElem_mem (h := by simpa using i1) : (tensorPoints (lines (ds.eraseIdx axis) e))[i] ∈ _)).length_eq
      have hll : (lines (ds.eraseIdx axis) e).length = e.length := by unfold lines; rw [List.length_zipWith]; omega
      omega
    have hJ : o.detJac = ((tensorPoints (lines (ds.eraseIdx axis) e))[i].map Pt.J).prod := by
      unfold Ker.tabulate at hto
      rw [show (atSide (c e) axis side).geometry = none from hgeo e] at hto
      dsimp only [atSide] at hto
      simp only [Res.ok.injEq] at hto
      rw [← hto, map_insertIdx]
      exact prod_insert (by simp; omega)
    dsimp only
    rw [hJ, map_insertIdx, map_insertIdx, prod_insert (by simp; omega)]
  rw [hval]
  have hin : ∀ pts ∈ tensorPoints (lines (ds.eraseIdx axis) e), InClosedBox (cellBox ((ds.eraseIdx axis).map Direction.ax) e) (pts.map Pt.x) := fun pts hp =>
    lines_inside (fun δ hd => hw δ (hmem δ hd)) (fun δ hd => hX δ (hmem δ hd)) he (mem_tensorPoints hp)
  rw [List.map_congr_left (g := fun pts => ((T e).map fun P => evalProd P (pts.map Pt.x) * ((pts.map Pt.J).prod * (pts.map Pt.w).prod)).sum) fun pts hp => by
    have t3 := t2 e he _ (hin pts hp)
    dsimp only at t3
    rw [t3, List.sum_map_mul_right]]
  simp only [one_mul]
  have hsw : ∀ (l : List (List (Pt Line))) (r : List (List ℝ[X])) (g : List (Pt Line) → List ℝ[X] → ℝ), (l.map fun x => (r.map fun y => g x y).sum).sum =
      (r.map fun y => (l.map fun x => g x y).sum).sum := by
    intro l r g
    induction l with
    | nil => simp
    | cons a l ih => simp only [List.map_cons, List.sum_cons, ih, List.sum_map_add]
  rw [hsw]
  congr 1
  refine List.map_congr_left fun P hP => ?_
  have := element_exact hx (t1 e he P hP) (show (ds.eraseIdx axis).length = e.length by omega)
  rw [this]

end PetIGA.Itg
