import Verif.Model.Tabulate
import Verif.Lemmas.LinIndep
import Verif.Props.Integrate
import Verif.Props.Tensor
import Verif.Props.Point
import Verif.Props.BSpline
/-
What the callbacks read at the points of an element, from the axes, the rules and the control points.
-/
set_option linter.unusedSectionVars false
namespace PetIGA.Itg
open PetIGA.Quad PetIGA.Drv PetIGA.Spec PetIGA.Ax PetIGA.Lay PetIGA.Asm PetIGA.Rule PetIGA.Grid PetIGA.Part PetIGA.Ker
open Polynomial

/-- `Π_k A_k(o_k, i_k)`: derivatives of order `o` of the function with indices `i`. -/
def tens : List Line → List Nat → List Int → ℝ
  | A :: As, o :: os, i :: is => A o i.toNat * tens As os is
  | _, _, _ => 1

/-- Derivative orders of `∂_i`. -/
def unitOrder {d : Nat} (i : Fin d) : List Nat := (List.finRange d).map fun k => if k = i then 1 else 0

theorem basisFuns_ok (order : Int) {d : Nat} (h1 : 1 ≤ d) (h3 : d ≤ 3) (ns : List Nat) (As : List Line) (hn : ns.length = d)
    (hA : As.length = d) (nen : Nat) (mem : Tab ℝ d Nat) : ∃ N, basisFuns order d ns As nen mem = some N ∧
      (∀ t, InBox (ns.map fun n : Nat => (n:Int)) t → ∀ a : Fin nen, (a:Int) = flat (ns.map fun n : Nat => (n:Int)) t →
        N.t0 a = tens As (List.replicate d 0) t ∧ (1 ≤ order → ∀ i, N.t1 i a = tens As (unitOrder i) t)) := by
  have modlem : ∀ (n x y : Nat), x < n → (x + n * y) % n = x ∧ (x + n * y) / n = y := by
    intro n x y h
    refine ⟨by rw [Nat.add_mul_mod_self_left, Nat.mod_eq_of_lt h], ?_⟩
    rw [Nat.add_mul_div_left _ _ (by omega), Nat.div_eq_of_lt h, Nat.zero_add]
  match d, h1, h3, ns, hn, As, hA, mem with
  | 1, _, _, [n1], _, [A], _, mem =>
    refine ⟨_, rfl, ?_⟩
    intro t ht a ha
    cases ht with
    | cons hi ht => cases ht; rename_i i
                    obtain ⟨i, rfl⟩ := Int.eq_ofNat_of_zero_le hi.1
                    have e : (a:Nat) = i := by simp only [flat, List.map] at ha; push_cast at ha; omega
                    obtain ⟨r0, r1, -⟩ := rows1_ok
                    constructor
                    · simp only [renumber, tensor1, e]
                      split_ifs <;> simp [exec_of r0, tens]
                    · intro ho l
                      simp only [renumber, tensor1, e]
                      rw [if_neg (by omega)]
                      have : (List.finRange 1).map (fun k => if k = l then 1 else 0) = [cnt [l] 0] := by
                        revert l; decide
                      rw [unitOrder, this]
                      split_ifs <;> simp only [exec_of (r1 l), tens] <;> simp
  | 2, _, _, [n1, n2], _, [A, B], _, mem =>
    refine ⟨_, rfl, ?_⟩
    intro t ht a ha
    cases ht with
    | cons hi ht =>
      cases ht with
      | cons hj ht =>
        cases ht; rename_i i j
        obtain ⟨i, rfl⟩ := Int.eq_ofNat_of_zero_le hi.1
        obtain ⟨j, rfl⟩ := Int.eq_ofNat_of_zero_le hj.1
        have e : (a:Nat) = i + n1 * j := by
          simp only [flat, List.map] at ha; push_cast at ha
          have : (a:Int) = ((i + n1 * j : Nat) : Int) := by push_cast; linarith
          exact_mod_cast this
        obtain ⟨m1, m2⟩ := modlem n1 i j (by have := hi.2; dsimp only at this; omega)
        obtain ⟨r0, r1, -⟩ := rows2_ok
        constructor
        · simp only [renumber, tensor2, e, m1, m2]
          split_ifs <;> simp [exec_of r0, tens, List.replicate]
        · intro ho l
          simp only [renumber, tensor2, e, m1, m2]
          rw [if_neg (by omega)]
          have : (List.finRange 2).map (fun k => if k = l then 1 else 0) = [cnt [l] 0, cnt [l] 1] := by
            revert l; decide
          rw [unitOrder, this]
          split_ifs <;> simp only [exec_of (r1 l), tens] <;> simp
  | 3, _, _, [n1, n2, n3], _, [A, B, C], _, mem =>
    refine ⟨_, rfl, ?_⟩
    intro t ht a ha
    cases ht with
    | cons hi ht =>
      cases ht with
      | cons hj ht =>
        cases ht with
        | cons hk ht =>
          cases ht; rename_i i j k
          obtain ⟨i, rfl⟩ := Int.eq_ofNat_of_zero_le hi.1
          obtain ⟨j, rfl⟩ := Int.eq_ofNat_of_zero_le hj.1
          obtain ⟨k, rfl⟩ := Int.eq_ofNat_of_zero_le hk.1
          have e : (a:Nat) = i + n1 * (j + n2 * k) := by
            simp only [flat, List.map] at ha; push_cast at ha
            have : (a:Int) = ((i + n1 * (j + n2 * k) : Nat) : Int) := by push_cast; linarith
            exact_mod_cast this
          obtain ⟨m1, m2⟩ := modlem n1 i (j + n2 * k) (by have := hi.2; dsimp only at this; omega)
          obtain ⟨m3, m4⟩ := modlem n2 j k (by have := hj.2; dsimp only at this; omega)
          obtain ⟨r0, r1, -⟩ := rows3_ok
          constructor
          · simp only [renumber, tensor3, e, m1, m2, m3, m4]
            split_ifs <;> simp [exec_of r0, tens, List.replicate, mul_assoc]
          · intro ho l
            simp only [renumber, tensor3, e, m1, m2, m3, m4]
            rw [if_neg (by omega)]
            have : (List.finRange 3).map (fun k => if k = l then 1 else 0) = [cnt [l] 0, cnt [l] 1, cnt [l] 2] := by
              revert l; decide
            rw [unitOrder, this]
            split_ifs <;> simp only [exec_of (r1 l), tens] <;> simp [mul_assoc]

/-! ### B-spline directions -/

/-- The basis kernel of the direction is the B-spline kernel (`IGA_Basis_BSpline`, called with `d = min(p,4)`), whatever is
in its uninitialised local arrays. -/
def IsSpline (δ : Direction Line) : Prop :=
  ∀ k u, ∃ J, δ.cb k u = fun t r : Nat => Bsp.basis J k u δ.ax.p.toNat (min δ.ax.p.toNat 4) δ.ax.U t r

/-- The polynomial that the `r`-th B-spline of element `e` is on that element. -/
noncomputable def bpoly (ax : Axis ℝ) (e : Int) (r : Nat) : ℝ[X] := piece ax.U (sp ax e) ax.p.toNat (sp ax e - ax.p + r)

theorem isElement_sp {ax : Axis ℝ} (hw : WF ax) {e : Int} (h0 : 0 ≤ e) (h1 : e < ax.nel) : IsElement ax.p ax.m ax.U (sp ax e) :=
  sp_elem hw.toPreWF h0 h1

theorem spline_value {δ : Direction Line} (hδ : IsSpline δ) (hw : WF δ.ax) {e : Int} (h0 : 0 ≤ e) (h1 : e < δ.ax.nel) (x : ℝ)
    (t r : Nat) (ht : t ≤ 4) (hr : (r:Int) ≤ δ.ax.p) : δ.cb (sp δ.ax e) x t r = (derivative^[t] (bpoly δ.ax e r)).eval x := by
  obtain ⟨J, hJ⟩ := hδ (sp δ.ax e) x
  have hp := hw.legal.degree
  rw [hJ]
  have h := Bsp.C13_library_call J δ.ax.p.toNat δ.ax.m (sp δ.ax e) δ.ax.U x hw.legal.sorted
    (by rw [Int.toNat_of_nonneg (by omega)]; exact isElement_sp hw h0 h1) r (by omega) t ht
  rw [Int.toNat_of_nonneg (by omega)] at h
  exact h

/-- The polynomials of the derivatives of orders `os` of the function with local indices `t` on element `e`. -/
noncomputable def bpolys : List (Axis ℝ) → List Int → List Nat → List Int → List ℝ[X]
  | ax :: axs, e :: es, o :: os, i :: is => derivative^[o] (bpoly ax e i.toNat) :: bpolys axs es os is
  | _, _, _, _ => []

/-- The tables of the directions at a point. -/
noncomputable def lineAt (p : Pt Line) : Line := p.value.getD fun _ _ => 0

theorem tens_eval : ∀ (ds : List (Direction Line)) (e : List Int) (os : List Nat) (t : List Int) (pts : List (Pt Line)),
    (∀ δ ∈ ds, IsSpline δ) → (∀ δ ∈ ds, WF δ.ax) → InBox (ds.map fun δ => δ.ax.nel) e → os.length = ds.length → (∀ o ∈ os, o ≤ 4) →
    InBox (nens (ds.map Direction.ax)) t → List.Forall₂ (fun l p => p ∈ l) (lines ds e) pts →
    tens (pts.map lineAt) os t = evalProd (bpolys (ds.map Direction.ax) e os t) (pts.map Pt.x)
  | [], _, os, _, _, _, _, he, ho, _, _, hp => by
    cases he
    cases hp
    simp [tens, evalProd, bpolys]
  | δ :: ds, _, o :: os, _, _, hs, hw, he, ho, ho4, ht, hp => by
    cases he with
    | cons he0 he =>
    rename_i e0 es
    change InBox ((δ.ax.p + 1) :: nens (ds.map Direction.ax)) _ at ht
    cases ht with
    | cons ht0 ht =>
    rename_i i is
    rw [show lines (δ :: ds) (e0 :: es) = (δ.X.zip δ.W).map (ptOf δ (sp δ.ax e0)) :: lines ds es from rfl] at hp
    cases hp with
    | cons hp0 hp =>
    rename_i p ps
    have ih := tens_eval ds es os is ps (fun d h => hs d (by simp [h])) (fun d h => hw d (by simp [h])) he (by simpa using ho)
      (fun o h => ho4 o (by simp [h])) ht hp
    obtain ⟨xw, -, rfl⟩ := List.mem_map.1 hp0
    have hv := spline_value (hs δ (by simp)) (hw δ (by simp)) he0.1 he0.2 ((xw.1 + 1) * ((δ.ax.U (sp δ.ax e0+1) - δ.ax.U (sp δ.ax e0)) / 2) + δ.ax.U (sp δ.ax e0))
      o i.toNat (ho4 o (by simp)) (by omega)
    simp only [List.map_cons, tens, bpolys, evalProd, List.zipWith_cons_cons, List.prod_cons]
    rw [ih]
    congr 1
  | _ :: _, _, [], _, _, _, _, _, ho, _, _, _ => by simp at ho

/-! ### The tabulated points -/

theorem sequence_mem {α β : Type} (f : β → Res α) : ∀ {l : List β} {r : List α}, Blk.sequence (l.map f) = .ok r →
    (∀ b ∈ l, ∃ a ∈ r, f b = .ok a) ∧ ∀ a ∈ r, ∃ b ∈ l, f b = .ok a
  | [], r, h => by
    simp only [List.map_nil, Blk.sequence, Res.ok.injEq] at h
    subst h; simp
  | b :: l, r, h => by
    rw [List.map_cons, Blk.sequence] at h
    cases hb : f b with
    | ok a =>
      rw [hb] at h
      cases hl : Blk.sequence (l.map f) with
      | ok as =>
        rw [hl] at h
        simp only [Res.bind, Res.ok.injEq] at h
        subst h
        obtain ⟨i1, i2⟩ := sequence_mem f hl
        constructor
        · intro x hx
          rcases List.mem_cons.1 hx with rfl | hx
          · exact ⟨a, by simp, hb⟩
          · obtain ⟨y, hy, e⟩ := i1 x hx
            exact ⟨y, by simp [hy], e⟩
        · intro x hx
          rcases List.mem_cons.1 hx with rfl | hx
          · exact ⟨b, by simp, hb⟩
          · obtain ⟨y, hy, e⟩ := i2 x hx
            exact ⟨y, by simp [hy], e⟩
      | err e => rw [hl] at h; simp [Res.bind] at h
      | ub => rw [hl] at h; simp [Res.bind] at h
    | err e => rw [hb] at h; simp [Res.bind] at h
    | ub => rw [hb] at h; simp [Res.bind] at h

/-- `q` is the point of the element `e` made from the points `pts` of the directions. -/
def PointOf {nsd nen : Nat} (ds : List (Direction Line)) {d : Nat} (c : PtIn d nsd (Fin nen)) (e : List Int) (pts : List (Pt Line))
    (q : QP ℝ (PtData d nsd nen)) : Prop :=
  ∃ N mem o, (∀ t, InBox (nens (ds.map Direction.ax)) t → ∀ a : Fin nen, (a:Int) = flat (nens (ds.map Direction.ax)) t →
      N.t0 a = evalProd (bpolys (ds.map Direction.ax) e (List.replicate d 0) t) (pts.map Pt.x) ∧
      (1 ≤ c.order → ∀ i, N.t1 i a = evalProd (bpolys (ds.map Direction.ax) e (unitOrder i) t) (pts.map Pt.x))) ∧
    Ker.tabulate c N (pts.map Pt.J).prod mem = .ok o ∧
    q = ⟨o.detJac, (pts.map Pt.w).prod, ⟨pts.map Pt.x, pointShape c o, o⟩⟩

theorem nen_eq {ds : List (Direction Line)} (hT : ∀ δ ∈ ds, δ.Tabulated) (hw : ∀ δ ∈ ds, WF δ.ax) :
    ((ds.map Direction.B).map fun B => B.nen.toNat).map (fun n : Nat => (n:Int)) = nens (ds.map Direction.ax) := by
  unfold nens
  rw [List.map_map, List.map_map, List.map_map]
  refine List.map_congr_left fun δ hδ => ?_
  obtain ⟨huge, n, -, -, -, -, h, -⟩ := elems_of (hT δ hδ)
  have := (hw δ hδ).legal.degree
  simp only [Function.comp_def]
  rw [h]; omega

theorem lines_value {ds : List (Direction Line)} : ∀ {e : List Int} {pts : List (Pt Line)},
    List.Forall₂ (fun l p => p ∈ l) (lines ds e) pts → pts.map Pt.value = (pts.map lineAt).map some := by
  induction ds with
  | nil => intro e pts h; cases h; rfl
  | cons δ ds ih =>
    intro e pts h
    cases e with
    | nil => cases h; rfl
    | cons e0 es =>
      rw [show lines (δ :: ds) (e0 :: es) = (δ.X.zip δ.W).map (ptOf δ (sp δ.ax e0)) :: lines ds es from rfl] at h
      cases h with
      | cons h0 h =>
      obtain ⟨xw, -, rfl⟩ := List.mem_map.1 h0
      simp only [List.map_cons]
      rw [ih h]
      rfl

theorem tabulatePoint_of {nsd nen d : Nat} {ds : List (Direction Line)} (hd : ds.length = d) (h1 : 1 ≤ d) (h3 : d ≤ 3)
    (hT : ∀ δ ∈ ds, δ.Tabulated) (hs : ∀ δ ∈ ds, IsSpline δ) (hw : ∀ δ ∈ ds, WF δ.ax) (c : PtIn d nsd (Fin nen)) {e : List Int}
    (he : InBox (ds.map fun δ => δ.ax.nel) e) {pts : List (Pt Line)} (hp : pts ∈ tensorPoints (lines ds e)) (mem) :
    ∃ N, (∀ t, InBox (nens (ds.map Direction.ax)) t → ∀ a : Fin nen, (a:Int) = flat (nens (ds.map Direction.ax)) t →
      N.t0 a = evalProd (bpolys (ds.map Direction.ax) e (List.replicate d 0) t) (pts.map Pt.x) ∧
      (1 ≤ c.order → ∀ i, N.t1 i a = evalProd (bpolys (ds.map Direction.ax) e (unitOrder i) t) (pts.map Pt.x))) ∧
    tabulatePoint c ((ds.map Direction.B).map fun B => B.nen.toNat) mem
      ⟨(pts.map Pt.J).prod, (pts.map Pt.w).prod, (pts.map Pt.x, pts.map Pt.value)⟩ =
      (Ker.tabulate c N (pts.map Pt.J).prod mem.2).bind fun o =>
        .ok ⟨o.detJac, (pts.map Pt.w).prod, ⟨pts.map Pt.x, pointShape c o, o⟩⟩ := by
  have hp2 := mem_tensorPoints hp
  have hl : pts.length = d := by
    have := hp2.length_eq
    have h2 := he.length_eq
    unfold lines at this
    simp at this h2
    omega
  obtain ⟨N, hN, hN2⟩ := basisFuns_ok c.order h1 h3 ((ds.map Direction.B).map fun B => B.nen.toNat) (pts.map lineAt) (by simp [hd])
    (by simp [hl]) nen mem.1
  rw [nen_eq hT hw] at hN2
  refine ⟨N, fun t ht a ha => ?_, ?_⟩
  · obtain ⟨n0, n1⟩ := hN2 t ht a ha
    rw [n0, tens_eval ds e _ t pts hs hw he (by simp [hd]) (by intro o ho; rw [List.eq_of_mem_replicate ho]; omega) ht hp2]
    refine ⟨rfl, fun ho i => ?_⟩
    rw [n1 ho i, tens_eval ds e _ t pts hs hw he (by simp [unitOrder, hd]) ?_ ht hp2]
    intro o ho
    obtain ⟨k, -, rfl⟩ := List.mem_map.1 ho
    split_ifs <;> omega
  · unfold tabulatePoint
    dsimp only
    rw [lines_value hp2, List.map_map, Blk.sequence_ok _ id]
    · simp only [List.map_id]
      rw [hN]
    · intro b _; rfl

theorem tabulated_points {nsd nen d : Nat} {ds : List (Direction Line)} (hd : ds.length = d) (h1 : 1 ≤ d) (h3 : d ≤ 3)
    (hT : ∀ δ ∈ ds, δ.Tabulated) (hs : ∀ δ ∈ ds, IsSpline δ) (hw : ∀ δ ∈ ds, WF δ.ax) (c : PtIn d nsd (Fin nen)) {e : List Int}
    (he : InBox (ds.map fun δ => δ.ax.nel) e) (mem) {qs} (h : tabulateElement c (ds.map Direction.B) e mem = .ok qs) :
    (∀ pts ∈ tensorPoints (lines ds e), ∃ q ∈ qs, PointOf ds c e pts q) ∧
    ∀ q ∈ qs, ∃ pts ∈ tensorPoints (lines ds e), PointOf ds c e pts q := by
  unfold tabulateElement at h
  rw [elemPoints_ok (by omega) hT hw he] at h
  simp only [Res.bind] at h
  obtain ⟨a1, a2⟩ := sequence_mem _ h
  have key : ∀ pts ∈ tensorPoints (lines ds e), ∀ i : Nat, ∀ q, tabulatePoint c ((ds.map Direction.B).map fun B => B.nen.toNat) (mem i)
      ⟨(pts.map Pt.J).prod, (pts.map Pt.w).prod, (pts.map Pt.x, pts.map Pt.value)⟩ = .ok q → PointOf ds c e pts q := by
    intro pts hp i q hq
    obtain ⟨N, n1, n2⟩ := tabulatePoint_of hd h1 h3 hT hs hw c he hp (mem i)
    rw [n2] at hq
    cases ho : Ker.tabulate c N (pts.map Pt.J).prod (mem i).2 with
    | ok o =>
      rw [ho] at hq
      simp only [Res.bind, Res.ok.injEq] at hq
      exact ⟨N, _, o, n1, ho, hq.symm⟩
    | err e => rw [ho] at hq; simp [Res.bind] at hq
    | ub => rw [ho] at hq; simp [Res.bind] at hq
  constructor
  · intro pts hp
    obtain ⟨i, hi, hpi⟩ := List.getElem_of_mem hp
    obtain ⟨q, hq, e⟩ := a1 ((⟨(pts.map Pt.J).prod, (pts.map Pt.w).prod, (pts.map Pt.x, pts.map Pt.value)⟩ : QP ℝ (List ℝ × List (Option Line))), i)
      (by rw [List.mk_mem_zipIdx_iff_getElem?, List.getElem?_map, List.getElem?_eq_getElem hi, hpi]; rfl)
    exact ⟨q, hq, key pts hp i q e⟩
  · intro q hq
    obtain ⟨⟨b, i⟩, hb, e⟩ := a2 q hq
    rw [List.mk_mem_zipIdx_iff_getElem?, List.getElem?_map, Option.map_eq_some_iff] at hb
    obtain ⟨pts, hp, rfl⟩ := hb
    exact ⟨pts, List.mem_of_getElem? hp, key pts (List.mem_of_getElem? hp) i q e⟩

end PetIGA.Itg
