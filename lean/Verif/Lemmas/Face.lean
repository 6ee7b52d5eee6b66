import Verif.Model.Face
import Verif.Props.Hull
import Verif.Lemmas.ByParts
/-
The points of a side of an element: what the tables contain, and which functions vanish there.
-/
set_option linter.unusedSectionVars false
namespace PetIGA.Itg
open PetIGA.Quad PetIGA.Drv PetIGA.Spec PetIGA.Ax PetIGA.Lay PetIGA.Asm PetIGA.Rule PetIGA.Grid PetIGA.Part PetIGA.Ker PetIGA.PCA
open Polynomial

/-- The coordinate of a side: the end of the parametric domain of the direction. -/
def sideEnd (ax : Axis ℝ) (side : Bool) : ℝ := if side then (domain ax).2 else (domain ax).1

/-- The elements at a side: the last or the first of the direction. -/
def sideElem (ax : Axis ℝ) (side : Bool) : Int := if side then ax.nel - 1 else 0

/-- The nodes of a side: the last or the first of the direction. -/
def sideNode (ax : Axis ℝ) (side : Bool) : Int := if side then ax.nnp - 1 else 0

/-- The knots are repeated at that end of the domain (`p` equal knots, not counting the very first and last, which play no role). -/
def ClampedAt (ax : Axis ℝ) (side : Bool) : Prop := if side then ax.U (ax.m - ax.p) = ax.U (ax.m - 1) else ax.U 1 = ax.U ax.p

/-- The first and the last interval of the domain are not empty (Props/GridSetup `Condition`). -/
def OpenEnds (ax : Axis ℝ) : Prop := ax.U ax.p < ax.U (ax.p+1) ∧ ax.U (ax.m-ax.p-1) < ax.U (ax.m-ax.p)

/-- The tables of the directions of a side of an element. -/
noncomputable def faceLines : List (Direction Line) → List Int → Nat → Bool → List (List (Pt Line))
  | δ :: ds, e0 :: es, 0, side => [⟨sideEnd δ.ax side, 1, 1, some (δ.cb (sp δ.ax e0) (sideEnd δ.ax side))⟩] :: lines ds es
  | δ :: ds, e0 :: es, a+1, side => (δ.X.zip δ.W).map (ptOf δ (sp δ.ax e0)) :: faceLines ds es a side
  | _, _, _, _ => []

theorem face_nel_pos {ax : Axis ℝ} (h : WF ax) (ho : OpenEnds ax) : 1 ≤ ax.nel := by
  have hp := h.legal.degree
  have hm := h.legal.enough
  obtain ⟨i, i0, i1, -⟩ := mem_sp h.toPreWF (k := ax.p) ⟨le_refl _, by omega, ho.1⟩
  omega

theorem sideElem_sp {ax : Axis ℝ} (h : WF ax) (ho : OpenEnds ax) (side : Bool) :
    sp ax (sideElem ax side) = (if side then ax.m - ax.p - 1 else ax.p) ∧ 0 ≤ sideElem ax side ∧ sideElem ax side < ax.nel := by
  have hn := face_nel_pos h ho
  cases side
  · exact ⟨by simpa [sideElem] using sp_first h.toPreWF hn ho.1, by simp [sideElem], by simp [sideElem]; omega⟩
  · exact ⟨by simpa [sideElem] using sp_last h.toPreWF hn ho.2, by simp [sideElem]; omega, by simp [sideElem]⟩

theorem bnd_of {d : Direction Line} (h : d.Tabulated) :
    d.B.bnd = (d.cb d.ax.p (d.ax.U d.ax.p), d.cb (d.ax.m - d.ax.p - 1) (d.ax.U (d.ax.m - d.ax.p - 1 + 1))) ∧ d.X ≠ [] ∧ d.W ≠ [] := by
  obtain ⟨huge, bt, r, r', h, ⟨h1, h2, h3, h4, h5⟩, ht, hW⟩ := h
  unfold initQuadrature at h
  simp only [show ¬ r.nqp < 1 by omega, if_false, h2, h3, ht, ne_eq, not_false_eq_true, if_true] at h
  split_ifs at h with hc
  · simp at h
  · simp only [Prod.mk.injEq, Option.some.injEq, true_and] at h
    obtain ⟨_, e⟩ := h
    refine ⟨by rw [← e], ?_, ?_⟩
    · intro h0; rw [h0] at h4; simp at h4; omega
    · intro h0; rw [h0] at h5; simp at h5; omega

theorem across_ok {d : Direction Line} (h : d.Tabulated) (hw : WF d.ax) (ho : OpenEnds d.ax) (side : Bool) :
    acrossPoints d.B (endPoints d.ax) (sideElem d.ax side) side =
      .ok [⟨sideEnd d.ax side, 1, 1, some (d.cb (sp d.ax (sideElem d.ax side)) (sideEnd d.ax side))⟩] := by
  obtain ⟨s1, s2, s3⟩ := sideElem_sp hw ho side
  obtain ⟨b1, b2, b3⟩ := bnd_of h
  unfold acrossPoints
  rw [dirPoints_ok h hw s2 s3]
  obtain ⟨x, X, hX⟩ := List.exists_cons_of_ne_nil b2
  obtain ⟨w, W, hW⟩ := List.exists_cons_of_ne_nil b3
  rw [hX, hW]
  simp only [List.zip_cons_cons, List.map_cons, Res.bind]
  unfold endPt
  rw [b1, s1]
  have e1 : d.ax.m - d.ax.p - 1 + 1 = d.ax.m - d.ax.p := by ring
  cases side <;> simp [endPoints, sideEnd, domain, e1]

theorem faceDirs_ok : ∀ {ds : List (Direction Line)} {e : List Int} {axis : Nat} {side : Bool} {δ : Direction Line}, (∀ d ∈ ds, d.Tabulated) →
    (∀ d ∈ ds, WF d.ax) → InBox (ds.map fun d => d.ax.nel) e → ds[axis]? = some δ → OpenEnds δ.ax → e[axis]? = some (sideElem δ.ax side) →
    Blk.sequence (faceDirs (ds.map Direction.B) (ds.map fun d => endPoints d.ax) e axis side) = .ok (faceLines ds e axis side)
  | [], _, _, _, _, _, _, _, h, _, _ => by simp at h
  | d :: ds, _, 0, side, δ, hT, hw, .cons (b := i) (l₂ := is) ha hr, h, ho, he => by
    simp only [List.getElem?_cons_zero, Option.some.injEq] at h he
    subst h
    subst he
    simp only [List.map_cons, faceDirs, Blk.sequence, faceLines]
    rw [across_ok (hT d (by simp)) (hw d (by simp)) ho, lines_ok (fun d' h' => hT d' (by simp [h'])) (fun d' h' => hw d' (by simp [h'])) hr]
    simp only [Res.bind]
  | d :: ds, _, a+1, side, δ, hT, hw, .cons (b := i) (l₂ := is) ha hr, h, ho, he => by
    simp only [List.getElem?_cons_succ] at h he
    simp only [List.map_cons, faceDirs, Blk.sequence, faceLines]
    rw [dirPoints_ok (hT d (by simp)) (hw d (by simp)) ha.1 ha.2,
      faceDirs_ok (fun d' h' => hT d' (by simp [h'])) (fun d' h' => hw d' (by simp [h'])) hr h ho he]
    simp only [Res.bind]

/-- The table of every direction is that of the functions of the element at the coordinate of the point. -/
inductive Sees : List (Direction Line) → List Int → List (Pt Line) → Prop
  | nil : Sees [] [] []
  | cons {δ ds e0 es p ps} : p.value = some (δ.cb (sp δ.ax e0) p.x) → Sees ds es ps → Sees (δ :: ds) (e0 :: es) (p :: ps)

theorem sees_lines : ∀ {ds : List (Direction Line)} {e : List Int} {pts : List (Pt Line)}, ds.length = e.length →
    List.Forall₂ (fun l p => p ∈ l) (lines ds e) pts → Sees ds e pts
  | [], [], _, _, h => by cases h; exact .nil
  | δ :: ds, e0 :: es, _, hl, h => by
    rw [show lines (δ :: ds) (e0 :: es) = (δ.X.zip δ.W).map (ptOf δ (sp δ.ax e0)) :: lines ds es from rfl] at h
    cases h with
    | cons h0 h =>
      obtain ⟨xw, -, rfl⟩ := List.mem_map.1 h0
      exact .cons rfl (sees_lines (by simpa using hl) h)
  | [], _ :: _, _, h, _ => by simp at h
  | _ :: _, [], _, h, _ => by simp at h

theorem lines_get : ∀ {ds : List (Direction Line)} {e : List Int} {pts : List (Pt Line)} {j : Nat} {d e0 x},
    List.Forall₂ (fun l p => p ∈ l) (lines ds e) pts → ds[j]? = some d → e[j]? = some e0 → (pts.map Pt.x)[j]? = some x →
    ∃ xw ∈ d.X.zip d.W, x = (ptOf d (sp d.ax e0) xw).x
  | [], _, _, _, _, _, _, _, h, _, _ => by simp at h
  | _ :: _, [], _, _, _, _, _, _, _, h, _ => by simp at h
  | f :: ds, b :: bs, _, j, d, e0, x, hp, h1, h2, h3 => by
    rw [show lines (f :: ds) (b :: bs) = (f.X.zip f.W).map (ptOf f (sp f.ax b)) :: lines ds bs from rfl] at hp
    cases hp with
    | cons q0 hp =>
    cases j with
    | zero =>
      simp only [List.getElem?_cons_zero, Option.some.injEq, List.map_cons] at h1 h2 h3
      subst h1; subst h2; subst h3
      obtain ⟨xw, hx, rfl⟩ := List.mem_map.1 q0
      exact ⟨xw, hx, rfl⟩
    | succ j =>
      simp only [List.getElem?_cons_succ, List.map_cons] at h1 h2 h3
      exact lines_get hp h1 h2 h3

/-- What is known of a point of a side: what it sees, where it is. -/
theorem face_point : ∀ {ds : List (Direction Line)} {e : List Int} {axis : Nat} {side : Bool} {δ : Direction Line} {pts : List (Pt Line)},
    (∀ d ∈ ds, WF d.ax) → InBox (ds.map fun d => d.ax.nel) e → ds[axis]? = some δ → OpenEnds δ.ax → e[axis]? = some (sideElem δ.ax side) →
    List.Forall₂ (fun l p => p ∈ l) (faceLines ds e axis side) pts →
    Sees ds e pts ∧ (pts.map Pt.x)[axis]? = some (sideEnd δ.ax side) ∧
    (∀ i d e0 x, i ≠ axis → ds[i]? = some d → e[i]? = some e0 → (pts.map Pt.x)[i]? = some x → ∃ xw ∈ d.X.zip d.W, x = (ptOf d (sp d.ax e0) xw).x) ∧
    ((∀ d ∈ ds, ∀ x ∈ d.X, -1 ≤ x ∧ x ≤ 1) → InCell (ds.map Direction.ax) e (pts.map Pt.x))
  | [], _, _, _, _, _, _, _, h, _, _, _ => by simp at h
  | d :: ds, _, 0, side, δ, pts, hw, .cons (b := i) (l₂ := is) ha hr, h, ho, he, hp => by
    simp only [List.getElem?_cons_zero, Option.some.injEq] at h he
    subst h
    subst he
    simp only [faceLines] at hp
    cases hp with
    | cons h0 hp =>
      simp only [List.mem_singleton] at h0
      subst h0
      have hl : ds.length = is.length := by rw [PetIGA.Grid.inBox_length hr]; simp
      refine ⟨.cons rfl (sees_lines hl hp), rfl, ?_, fun hX => .cons ?_ (lines_inside (fun d' h' => hw d' (by simp [h'])) (fun d' h' => hX d' (by simp [h'])) hr hp)⟩
      · intro i d' e0 x hi h1 h2 h3
        obtain ⟨j, rfl⟩ : ∃ j, i = j + 1 := ⟨i - 1, by omega⟩
        simp only [List.getElem?_cons_succ, List.map_cons] at h1 h2 h3
        exact lines_get hp h1 h2 h3
      · obtain ⟨s1, s2, s3⟩ := sideElem_sp (hw d (by simp)) ho side
        have := ho
        unfold OpenEnds at this
        have e1 : d.ax.m - d.ax.p - 1 + 1 = d.ax.m - d.ax.p := by ring
        simp only [cell, sideEnd, domain]
        rw [s1]
        cases side <;> simp [e1] <;> linarith [this.1, this.2]
  | d :: ds, _, a+1, side, δ, pts, hw, .cons (b := i) (l₂ := is) ha hr, h, ho, he, hp => by
    simp only [List.getElem?_cons_succ] at h he
    simp only [faceLines] at hp
    cases hp with
    | cons h0 hp =>
      obtain ⟨xw, hxw, rfl⟩ := List.mem_map.1 h0
      obtain ⟨i1, i2, i3, i4⟩ := face_point (fun d' h' => hw d' (by simp [h'])) hr h ho he hp
      refine ⟨.cons rfl i1, by simpa using i2, ?_, fun hX => .cons ?_ (i4 fun d' h' => hX d' (by simp [h']))⟩
      · intro i d' e0 x hi h1 h2 h3
        cases i with
        | zero =>
          simp only [List.getElem?_cons_zero, Option.some.injEq, List.map_cons] at h1 h2 h3
          subst h1; subst h2; subst h3
          exact ⟨xw, hxw, rfl⟩
        | succ i =>
          simp only [List.getElem?_cons_succ, List.map_cons] at h1 h2 h3
          exact i3 i d' e0 x (by omega) h1 h2 h3
      · have hx := hX d (by simp) xw.1 (List.of_mem_zip hxw).1
        have hel := (isElement_sp (hw d (by simp)) ha.1 ha.2).2.2
        simp only [ptOf, cell]
        constructor <;> nlinarith

theorem tens_sees : ∀ (ds : List (Direction Line)) (e : List Int) (os : List Nat) (t : List Int) (pts : List (Pt Line)),
    (∀ δ ∈ ds, IsSpline δ) → (∀ δ ∈ ds, WF δ.ax) → InBox (ds.map fun δ => δ.ax.nel) e → os.length = ds.length → (∀ o ∈ os, o ≤ 4) →
    InBox (nens (ds.map Direction.ax)) t → Sees ds e pts →
    tens (pts.map lineAt) os t = evalProd (bpolys (ds.map Direction.ax) e os t) (pts.map Pt.x)
  | [], _, os, _, _, _, _, _, _, _, _, hp => by
    cases hp
    simp [tens, evalProd, bpolys]
  | _ :: _, _, [], _, _, _, _, _, ho, _, _, _ => by simp at ho
  | δ :: ds, _, o :: os, _, _, hs, hw, he, ho, ho4, ht, hp => by
    cases hp with
    | cons hv hp =>
    rename_i e0 es p ps
    cases he with
    | cons he0 he =>
    change InBox ((δ.ax.p + 1) :: nens (ds.map Direction.ax)) _ at ht
    cases ht with
    | cons ht0 ht =>
    rename_i i is
    have ih := tens_sees ds es os is ps (fun d h => hs d (by simp [h])) (fun d h => hw d (by simp [h])) he (by simpa using ho)
      (fun o h => ho4 o (by simp [h])) ht hp
    have hv' := spline_value (hs δ (by simp)) (hw δ (by simp)) he0.1 he0.2 p.x o i.toNat (ho4 o (by simp)) (by omega)
    simp only [List.map_cons, tens, bpolys, evalProd, List.zipWith_cons_cons, List.prod_cons]
    rw [ih]
    congr 1
    unfold lineAt
    rw [hv]
    exact hv'

theorem sees_value : ∀ {ds : List (Direction Line)} {e : List Int} {pts : List (Pt Line)}, Sees ds e pts → pts.length = ds.length ∧
    pts.map Pt.value = (pts.map lineAt).map some
  | _, _, _, .nil => ⟨rfl, rfl⟩
  | _, _, _, .cons h hp => by
    obtain ⟨i1, i2⟩ := sees_value hp
    refine ⟨by simp [i1], ?_⟩
    simp only [List.map_cons]
    rw [i2]
    unfold lineAt
    rw [h]
    rfl

theorem tabulatePoint_sees {nsd nen d : Nat} {ds : List (Direction Line)} (hd : ds.length = d) (h1 : 1 ≤ d) (h3 : d ≤ 3)
    (hT : ∀ δ ∈ ds, δ.Tabulated) (hs : ∀ δ ∈ ds, IsSpline δ) (hw : ∀ δ ∈ ds, WF δ.ax) (c : PtIn d nsd (Fin nen)) {e : List Int}
    (he : InBox (ds.map fun δ => δ.ax.nel) e) {pts : List (Pt Line)} (hp : Sees ds e pts) (mem) :
    ∃ N, (∀ t, InBox (nens (ds.map Direction.ax)) t → ∀ a : Fin nen, (a:Int) = flat (nens (ds.map Direction.ax)) t →
      N.t0 a = evalProd (bpolys (ds.map Direction.ax) e (List.replicate d 0) t) (pts.map Pt.x) ∧
      (1 ≤ c.order → ∀ i, N.t1 i a = evalProd (bpolys (ds.map Direction.ax) e (unitOrder i) t) (pts.map Pt.x))) ∧
    tabulatePoint c ((ds.map Direction.B).map fun B => B.nen.toNat) mem
      ⟨(pts.map Pt.J).prod, (pts.map Pt.w).prod, (pts.map Pt.x, pts.map Pt.value)⟩ =
      (Ker.tabulate c N (pts.map Pt.J).prod mem.2).bind fun o =>
        .ok ⟨o.detJac, (pts.map Pt.w).prod, ⟨pts.map Pt.x, pointShape c o, o⟩⟩ := by
  obtain ⟨hl, hv⟩ := sees_value hp
  obtain ⟨N, hN, hN2⟩ := basisFuns_ok c.order h1 h3 ((ds.map Direction.B).map fun B => B.nen.toNat) (pts.map lineAt) (by simp [hd])
    (by simp [hl, hd]) nen mem.1
  rw [nen_eq hT hw] at hN2
  refine ⟨N, fun t ht a ha => ?_, ?_⟩
  · obtain ⟨n0, n1⟩ := hN2 t ht a ha
    rw [n0, tens_sees ds e _ t pts hs hw he (by simp [hd]) (by intro o ho; rw [List.eq_of_mem_replicate ho]; omega) ht hp]
    refine ⟨rfl, fun ho i => ?_⟩
    rw [n1 ho i, tens_sees ds e _ t pts hs hw he (by simp [unitOrder, hd]) ?_ ht hp]
    intro o ho
    obtain ⟨k, -, rfl⟩ := List.mem_map.1 ho
    split_ifs <;> omega
  · unfold tabulatePoint
    dsimp only
    rw [hv, List.map_map, Blk.sequence_ok _ id]
    · simp only [List.map_id]
      rw [hN]
    · intro b _; rfl

theorem sequence_forall₂ {α : Type} : ∀ {l : List (Res α)} {r : List α}, Blk.sequence l = .ok r → List.Forall₂ (fun a b => a = .ok b) l r
  | [], r, h => by
    simp only [Blk.sequence, Res.ok.injEq] at h
    subst h; exact .nil
  | b :: l, r, h => by
    rw [Blk.sequence] at h
    obtain ⟨a, ha, h⟩ := Res.bind_eq_ok.1 h
    replace h := Res.bind_eq_ok.1 h
    obtain ⟨as, hl, h⟩ := h
    simp only [Res.ok.injEq] at h
    subst h
    exact .cons ha (sequence_forall₂ hl)

/-- The boundary callbacks' view of the element context. -/
def atSide {d nsd nen : Nat} (c : PtIn d nsd (Fin nen)) (axis : Fin d) (side : Bool) : PtIn d nsd (Fin nen) :=
  { c with boundary := some (axis, if side then 1 else 0) }

theorem facePoints_ok {ds : List (Direction Line)} {e : List Int} {axis : Nat} {side : Bool} {δ : Direction Line} (h3 : ds.length ≤ 3)
    (hT : ∀ d ∈ ds, d.Tabulated) (hw : ∀ d ∈ ds, WF d.ax) (he : InBox (ds.map fun d => d.ax.nel) e) (hδ : ds[axis]? = some δ)
    (ho : OpenEnds δ.ax) (hs : e[axis]? = some (sideElem δ.ax side)) :
    facePoints (ds.map Direction.B) (ds.map fun d => endPoints d.ax) e axis side = .ok ((tensorPoints (faceLines ds e axis side)).map fun pts =>
      ⟨(pts.map Pt.J).prod, (pts.map Pt.w).prod, (pts.map Pt.x, pts.map Pt.value)⟩) := by
  unfold facePoints
  rw [faceDirs_ok hT hw he hδ ho hs]
  simp only [Res.bind]
  congr 1
  refine List.map_congr_left fun pts hp => ?_
  obtain ⟨s, -⟩ := face_point hw he hδ ho hs (mem_tensorPoints hp)
  have hl := (sees_value s).1
  rw [quadrature_eq _ (by simp; omega)]
  simp [List.map_map, Function.comp_def]

/-- The points of a side, one by one. -/
theorem face_tabulated {nsd nen d : Nat} {ds : List (Direction Line)} (hd : ds.length = d) (h1 : 1 ≤ d) (h3 : d ≤ 3)
    (hT : ∀ δ ∈ ds, δ.Tabulated) (hs : ∀ δ ∈ ds, IsSpline δ) (hw : ∀ δ ∈ ds, WF δ.ax) (c : PtIn d nsd (Fin nen)) {e : List Int}
    (he : InBox (ds.map fun δ => δ.ax.nel) e) (mem) {axis : Fin d} {side : Bool} {δ : Direction Line} (hδ : ds[(axis:Nat)]? = some δ)
    (ho : OpenEnds δ.ax) (hse : e[(axis:Nat)]? = some (sideElem δ.ax side)) {qs}
    (h : tabulateFace c (ds.map Direction.B) (ds.map fun d => endPoints d.ax) e axis side mem = .ok qs) :
    List.Forall₂ (PointOf ds (atSide c axis side) e) (tensorPoints (faceLines ds e axis side)) qs := by
  unfold tabulateFace at h
  rw [facePoints_ok (by omega) hT hw he hδ ho hse] at h
  simp only [Res.bind] at h
  have h2 := sequence_forall₂ h
  rw [List.forall₂_iff_get] at h2 ⊢
  obtain ⟨hl, h2⟩ := h2
  simp only [List.length_map, List.length_zipIdx] at hl
  refine ⟨hl, fun i hi1 hi2 => ?_⟩
  have h3' := h2 i (by simpa using hi1) hi2
  simp only [List.get_eq_getElem, List.getElem_map, List.getElem_zipIdx] at h3' ⊢
  set pts := (tensorPoints (faceLines ds e axis side))[i]
  obtain ⟨sv, -⟩ := face_point hw he hδ ho hse (mem_tensorPoints (List.getElem_mem hi1))
  obtain ⟨N, n1, n2⟩ := tabulatePoint_sees hd h1 h3 hT hs hw (atSide c axis side) he sv (mem (0+i))
  change tabulatePoint (atSide c axis side) _ _ _ = _ at h3'
  rw [n2] at h3'
  obtain ⟨o, ho', hq⟩ := Res.bind_eq_ok.1 h3'
  simp only [Res.ok.injEq] at hq
  exact ⟨N, _, o, n1, ho', hq.symm⟩

/-- The functions, rational or not, are not negative and sum to one at a point of the closed element. -/
theorem basis_hull {ds : List (Direction Line)} (hw : ∀ δ ∈ ds, WF δ.ax) {nsd : Nat}
    (c : PtIn ds.length nsd (Fin (nenOf (ds.map Direction.ax)))) (hR : PositiveWeights c) {e : List Int}
    (he : InBox (ds.map fun δ => δ.ax.nel) e) {xs : List ℝ} (hin : InCell (ds.map Direction.ax) e xs)
    {N : Tab ℝ ds.length (Fin (nenOf (ds.map Direction.ax)))}
    (hN : ∀ t, InBox (nens (ds.map Direction.ax)) t → ∀ a : Fin (nenOf (ds.map Direction.ax)), (a:Int) = flat (nens (ds.map Direction.ax)) t →
      N.t0 a = evalProd (bpolys (ds.map Direction.ax) e (List.replicate ds.length 0) t) xs) :
    (∀ a, 0 ≤ (basisOf c N).t0 a) ∧ ∑ a, (basisOf c N).t0 a = 1 ∧ ∀ a, N.t0 a = 0 → (basisOf c N).t0 a = 0 := by
  have hlen : xs.length = (ds.map Direction.ax).length := by
    rw [← hin.length_eq]
    simp [cellBox, PetIGA.Grid.inBox_length he]
  have hw' : ∀ ax ∈ ds.map Direction.ax, WF ax := by
    intro ax hax
    obtain ⟨δ, hδ, rfl⟩ := List.mem_map.1 hax
    exact hw δ hδ
  have he' : InBox ((ds.map Direction.ax).map fun ax => ax.nel) e := by rw [List.map_map]; exact he
  have hone : ∑ a, N.t0 a = 1 := by
    rw [fin_sum]
    have := tensor_one (ds.map Direction.ax) e xs hw' he' hlen
    rw [List.length_map] at this
    rw [← this]
    congr 1; refine List.map_congr_left fun t ht => ?_
    have hlt := flat_lt_nen (ds.map Direction.ax) ht
    unfold ent
    rw [dif_pos hlt]
    exact hN t ((mem_indices _ _).1 ht) ⟨_, hlt⟩ (by
      have := (flat_range ((mem_indices _ _).1 ht)).1
      simp only; omega)
  have hnn : ∀ a, 0 ≤ N.t0 a := by
    intro a
    obtain ⟨t, ht', hta⟩ := local_index (ds.map Direction.ax) a
    rw [hN t ht' a hta]
    have := tensor_nonneg (ds.map Direction.ax) e t xs hw' he' ht' hin
    rwa [List.length_map] at this
  cases hr : c.rational with
  | none =>
    have hB : basisOf c N = N := by unfold basisOf; rw [hr]
    rw [hB]
    exact ⟨hnn, hone, fun _ h => h⟩
  | some W =>
    have hW := hR W hr
    have hpos : 0 < ∑ a, W a * N.t0 a := by
      refine lt_of_le_of_ne (Finset.sum_nonneg fun a _ => mul_nonneg (hW a).le (hnn a)) fun h0 => ?_
      have hall := (Finset.sum_eq_zero_iff_of_nonneg (fun a _ => mul_nonneg (hW a).le (hnn a))).1 h0.symm
      have : ∑ a, N.t0 a = 0 := Finset.sum_eq_zero fun a ha => (mul_eq_zero.1 (hall a ha)).resolve_left (hW a).ne'
      rw [hone] at this
      exact one_ne_zero this
    have hR0 : ∀ a, (basisOf c N).t0 a = W a * N.t0 a / ∑ a, W a * N.t0 a := by
      intro a
      unfold basisOf
      rw [hr]
      dsimp only
      unfold rationalize
      split_ifs <;> rfl
    refine ⟨fun a => ?_, ?_, fun a ha => ?_⟩
    · rw [hR0]; exact div_nonneg (mul_nonneg (hW a).le (hnn a)) hpos.le
    · simp only [hR0]
      rw [← Finset.sum_div, div_self hpos.ne']
    · rw [hR0, ha]; simp

theorem evalProd_zero {P : List ℝ[X]} {xs : List ℝ} {i : Nat} {p : ℝ[X]} {x : ℝ} (h1 : P[i]? = some p) (h2 : xs[i]? = some x)
    (h : p.eval x = 0) : evalProd P xs = 0 := by
  unfold evalProd
  refine List.prod_eq_zero ?_
  rw [List.mem_iff_getElem?]
  exact ⟨i, by rw [List.getElem?_zipWith, h1, h2]; simp [h]⟩

theorem bpolys_get : ∀ {axs : List (Axis ℝ)} {e : List Int} {os : List Nat} {t : List Int} {i : Nat} {ax e0 o r},
    axs[i]? = some ax → e[i]? = some e0 → os[i]? = some o → t[i]? = some r →
    (bpolys axs e os t)[i]? = some (derivative^[o] (bpoly ax e0 r.toNat))
  | ax :: axs, e :: es, o :: os, t :: ts, 0, _, _, _, _, h1, h2, h3, h4 => by
    simp only [List.getElem?_cons_zero, Option.some.injEq] at h1 h2 h3 h4
    subst h1; subst h2; subst h3; subst h4
    rfl
  | ax :: axs, e :: es, o :: os, t :: ts, i+1, _, _, _, _, h1, h2, h3, h4 => by
    simp only [List.getElem?_cons_succ] at h1 h2 h3 h4
    simp only [bpolys, List.getElem?_cons_succ]
    exact bpolys_get h1 h2 h3 h4
  | [], _, _, _, _, _, _, _, _, h, _, _, _ => by simp at h
  | _ :: _, [], _, _, _, _, _, _, _, _, h, _, _ => by simp at h
  | _ :: _, _ :: _, [], _, _, _, _, _, _, _, _, h, _ => by simp at h
  | _ :: _, _ :: _, _ :: _, [], _, _, _, _, _, _, _, _, h => by simp at h

/-- On a clamped side only the function of the side does not vanish. -/
theorem bpoly_side {ax : Axis ℝ} (h : WF ax) (ho : OpenEnds ax) {side : Bool} (hc : ClampedAt ax side) {r : Int} (h0 : 0 ≤ r) (h1 : r ≤ ax.p)
    (hr : r ≠ if side then ax.p else 0) : (bpoly ax (sideElem ax side) r.toNat).eval (sideEnd ax side) = 0 := by
  have hp := h.legal.degree
  have hm := h.legal.enough
  have hs := h.legal.sorted
  obtain ⟨s1, -⟩ := sideElem_sp h ho side
  unfold bpoly
  rw [s1]
  cases side
  · simp only [Bool.false_eq_true, if_false, ClampedAt, sideEnd, domain] at hr hc ⊢
    refine Bsp.piece_start _ _ _ _ _ (fun j j0 j1 => ?_) (by omega)
    have a := Ax.sorted_mono hs (i := 1) (j := j) (by omega) (by omega) (by omega)
    have b := Ax.sorted_mono hs (i := j) (j := ax.p) (by omega) (by omega) (by omega)
    rw [hc] at a
    exact le_antisymm b a
  · simp only [if_true, ClampedAt, sideEnd, domain] at hr hc ⊢
    refine Bsp.piece_end _ _ _ _ _ (fun j j0 j1 => ?_) (by omega)
    have a := Ax.sorted_mono hs (i := ax.m - ax.p) (j := j) (by omega) (by omega) (by omega)
    have b := Ax.sorted_mono hs (i := j) (j := ax.m - 1) (by omega) (by omega) (by omega)
    rw [← hc] at b
    exact le_antisymm b a

theorem firstNode_gal {ax : Axis ℝ} (h : WF ax) {e : Int} (h0 : 0 ≤ e) (h1 : e < ax.nel) : firstNode false ax e = sp ax e - ax.p := by
  unfold firstNode spanOf shiftOf
  simp only [Bool.false_eq_true, if_false]
  rw [spanAt_ok h.toPreWF (by omega) (by omega)]
  ring

theorem node_side {axs : List (Axis ℝ)} {e t : List Int} {i : Nat} {ax : Axis ℝ} (h : WF ax) (ho : OpenEnds ax) (hper : ax.periodic = false)
    {side : Bool} (h1 : axs[i]? = some ax) (h2 : e[i]? = some (sideElem ax side)) (h3 : t[i]? = some (if side then ax.p else 0)) :
    (nodeOf false axs e t)[i]? = some (sideNode ax side) := by
  obtain ⟨s1, s2, s3⟩ := sideElem_sp h ho side
  have hp := h.legal.degree
  have hm := h.legal.enough
  have hn := (nnp_bounds h).2.2.1 hper
  have hf := firstNode_gal h s2 s3
  unfold nodeOf modAll plus firstNodes
  rw [List.getElem?_zipWith, List.getElem?_map, h1, List.getElem?_zipWith, List.getElem?_zipWith, h1, h2, h3]
  simp only [Option.map_some, Option.some.injEq]
  rw [hf, s1, hn]
  cases side
  · simp [sideNode]
  · simp only [if_true, sideNode, hn]
    rw [Int.emod_eq_of_lt (by omega) (by omega)]; ring

end PetIGA.Itg
