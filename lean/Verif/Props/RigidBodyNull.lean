import Verif.Props.RigidBodyPeriodic
import Verif.Lemmas.TensorPoly
/-
The null space of the elastic matrix is exactly the span of the vectors of `IGACreateRigidBody` (C89).
-/
set_option linter.unusedSectionVars false
namespace PetIGA.Itg
open PetIGA.Quad PetIGA.Drv PetIGA.Spec PetIGA.Ax PetIGA.Lay PetIGA.Asm PetIGA.Rule PetIGA.Grid PetIGA.Part PetIGA.Ker PetIGA.PCA PetIGA.Crd
open Polynomial

variable {g2 : Guess2} {g3 : Guess3} {size : Int} {procs : List Int} {axes : List (Axis ℝ)} {Ls : List (Layout ℝ)}

/-! ### One element -/

/-- The field of an element, or its derivative of orders `o`. -/
noncomputable def field (axs : List (Axis ℝ)) (e : List Int) (o : List Nat) (f : List Int → ℝ) : List (ℝ × List ℝ[X]) :=
  (indices (nens axs)).map fun t => (f t, bpolys axs e o t)

theorem field_eval (axs : List (Axis ℝ)) (e : List Int) (o : List Nat) (f : List Int → ℝ) (xs : List ℝ) :
    sumAt (field axs e o f) xs = ((indices (nens axs)).map fun t => f t * evalProd (bpolys axs e o t) xs).sum := by
  unfold sumAt field; rw [List.map_map]; rfl

theorem bpolys_modify : ∀ (axs : List (Axis ℝ)) (e : List Int) (o : List Nat) (t : List Int) (j : Nat),
    bpolys axs e (o.modify j (· + 1)) t = (bpolys axs e o t).modify j fun p => derivative p
  | [], e, o, t, j => by simp [bpolys]
  | ax :: axs, [], o, t, j => by simp [bpolys]
  | ax :: axs, e :: es, [], t, j => by simp [bpolys]
  | ax :: axs, e :: es, o :: os, [], j => by cases j <;> simp [bpolys]
  | ax :: axs, e :: es, o :: os, t :: ts, 0 => by
    simp only [List.modify_zero_cons, bpolys, Function.iterate_succ', Function.comp]
  | ax :: axs, e :: es, o :: os, t :: ts, j+1 => by
    simp only [List.modify_succ_cons, bpolys]
    rw [bpolys_modify axs es os ts j]

theorem field_deriv (axs : List (Axis ℝ)) (e : List Int) (o : List Nat) (f : List Int → ℝ) (j : Nat) :
    dTerms j (field axs e o f) = field axs e (o.modify j (· + 1)) f := by
  unfold dTerms field
  rw [List.map_map]
  refine List.map_congr_left fun t _ => ?_
  simp only [Function.comp, bpolys_modify]

theorem derivative_iter_degree (p : ℝ[X]) {n : Nat} (h : p.degree ≤ n) : ∀ o : Nat, (derivative^[o] p).degree ≤ n
  | 0 => h
  | o+1 => by
    rw [Function.iterate_succ', Function.comp]
    exact (degree_derivative_le).trans (derivative_iter_degree p h o)

theorem bpolys_degree : ∀ (axs : List (Axis ℝ)) (e : List Int) (o : List Nat) (t : List Int), e.length = axs.length → o.length = axs.length →
    t.length = axs.length → List.Forall₂ (fun (p : ℝ[X]) (d : Nat) => p.degree ≤ d) (bpolys axs e o t) (axs.map fun ax => ax.p.toNat)
  | [], _, _, _, _, _, _ => .nil
  | ax :: axs, e :: es, o :: os, t :: ts, h1, h2, h3 =>
    .cons (derivative_iter_degree _ (Bsp.piece_natDegree _ _ _ _) o) (bpolys_degree axs es os ts (by simpa using h1) (by simpa using h2) (by simpa using h3))
  | _ :: _, [], _, _, h, _, _ => by simp at h
  | _ :: _, _ :: _, [], _, _, h, _ => by simp at h
  | _ :: _, _ :: _, _ :: _, [], _, _, h => by simp at h

theorem lines_enough {ds : List (Direction Line)} (hT : ∀ δ ∈ ds, δ.Tabulated) (hw : ∀ δ ∈ ds, WF δ.ax) (hE : ∀ δ ∈ ds, Enough δ) {e : List Int}
    (he : InBox (ds.map fun δ => δ.ax.nel) e) :
    List.Forall₂ (fun (d : Nat) (X : List ℝ) => X.Nodup ∧ d < X.length) (ds.map fun δ => δ.ax.p.toNat) ((lines ds e).map fun l => l.map Pt.x) := by
  induction ds generalizing e with
  | nil => cases he; exact .nil
  | cons δ ds ih =>
    cases he with
    | @cons _ e0 _ es he0 he =>
    refine .cons ?_ (ih (fun d h => hT d (by simp [h])) (fun d h => hw d (by simp [h])) (fun d h => hE d (by simp [h])) he)
    obtain ⟨huge, n, -, b2, b3, -, -, -⟩ := elems_of (hT δ (by simp))
    have hY2 := line_points (δ := δ) (by omega) (sp δ.ax e0)
    have hel := isElement_sp (hw δ (by simp)) he0.1 he0.2
    have hp := (hw δ (by simp)).legal.degree
    have hEδ := hE δ (by simp)
    beta_reduce
    rw [hY2]
    have hJ : (δ.ax.U (sp δ.ax e0 + 1) - δ.ax.U (sp δ.ax e0)) / 2 ≠ 0 := by
      have := hel.2.2
      have h2 : 0 < (δ.ax.U (sp δ.ax e0 + 1) - δ.ax.U (sp δ.ax e0)) / 2 := by linarith
      exact h2.ne'
    refine ⟨?_, by rw [List.length_map]; have := hEδ.2; omega⟩
    refine List.Nodup.map (fun a b hab => ?_) hEδ.1
    simp only [add_left_inj] at hab
    have := mul_right_cancel₀ hJ hab
    linarith

theorem mem_tensorPoints_iff {α : Type} : ∀ {ls : List (List α)} {pts : List α}, List.Forall₂ (fun l p => p ∈ l) ls pts → pts ∈ tensorPoints ls
  | [], _, h => by cases h; simp [tensorPoints]
  | l :: ls, _, h => by
    cases h with
    | cons h0 h =>
    rw [tensorPoints]
    exact List.mem_flatMap.2 ⟨_, mem_tensorPoints_iff h, List.mem_map.2 ⟨_, h0, rfl⟩⟩

theorem lift_points {ls : List (List (Pt Line))} {xs : List ℝ} (h : List.Forall₂ (fun X x => x ∈ X) (ls.map fun l => l.map Pt.x) xs) :
    ∃ pts ∈ tensorPoints ls, xs = pts.map Pt.x := by
  induction ls generalizing xs with
  | nil => cases h; exact ⟨[], by simp [tensorPoints], rfl⟩
  | cons l ls ih =>
    cases h with
    | cons h0 h =>
    obtain ⟨p, hp, rfl⟩ := List.mem_map.1 h0
    obtain ⟨pts, h1, rfl⟩ := ih h
    exact ⟨p :: pts, by rw [tensorPoints]; exact List.mem_flatMap.2 ⟨pts, h1, List.mem_map.2 ⟨p, hp, rfl⟩⟩, rfl⟩

theorem unitOrder_modify {d : Nat} (i j : Fin d) : (unitOrder i).modify j (· + 1) = (unitOrder j).modify i (· + 1) := by
  refine List.ext_getElem (by simp [unitOrder]) fun k h1 h2 => ?_
  have hk : k < d := by simpa [unitOrder] using h1
  rw [List.getElem_modify, List.getElem_modify]
  simp only [unitOrder, List.getElem_map, List.getElem_finRange]
  have e1 : ((j:Nat) = k) ↔ (Fin.cast (by simp) (⟨k, hk⟩ : Fin d) = j) := by
    constructor
    · intro h; exact Fin.ext h.symm
    · intro h; exact (congrArg Fin.val h).symm
  by_cases hi : (i:Nat) = k <;> by_cases hj : (j:Nat) = k <;> simp [hi, hj, Fin.ext_iff, eq_comm]

/-- Zero strain at the points of an element: a rigid motion of the Greville points. -/
theorem local_rigid {ds : List (Direction Line)} (hT : ∀ δ ∈ ds, δ.Tabulated) (hw : ∀ δ ∈ ds, WF δ.ax) (hE : ∀ δ ∈ ds, Enough δ) {e : List Int}
    (he : InBox (ds.map fun δ => δ.ax.nel) e) (f : Fin ds.length → List Int → ℝ)
    (hz : ∀ pts ∈ tensorPoints (lines ds e), ∀ i l : Fin ds.length,
      ((indices (nens (ds.map Direction.ax))).map fun t => f l t * evalProd (bpolys (ds.map Direction.ax) e (unitOrder i) t) (pts.map Pt.x)).sum +
      ((indices (nens (ds.map Direction.ax))).map fun t => f i t * evalProd (bpolys (ds.map Direction.ax) e (unitOrder l) t) (pts.map Pt.x)).sum = 0) :
    ∃ (R : Fin ds.length → Fin ds.length → ℝ) (τ : Fin ds.length → ℝ), (∀ i l, R i l = -R l i) ∧ ∀ t, InBox (nens (ds.map Direction.ax)) t → ∀ i,
      f i t = τ i + ∑ k : Fin ds.length, R i k * grev (ds.get k).ax (sp (ds.get k).ax (e.getD k 0) - (ds.get k).ax.p + t.getD k 0) := by
  have hw' : ∀ ax ∈ ds.map Direction.ax, WF ax := by
    intro ax hax
    obtain ⟨δ, hδ, rfl⟩ := List.mem_map.1 hax
    exact hw δ hδ
  have he' : InBox ((ds.map Direction.ax).map Axis.nel) e := by rw [List.map_map]; exact he
  set axs := ds.map Direction.ax with haxs
  have hlen : axs.length = ds.length := by simp [haxs]
  have hel : e.length = axs.length := by rw [PetIGA.Grid.inBox_length he']; simp
  have hbp : ∀ o : List Nat, o.length = axs.length → ∀ g, ∀ a ∈ field axs e o g, List.Forall₂ (fun (p : ℝ[X]) (d : Nat) => p.degree ≤ d) a.2 (axs.map fun ax => ax.p.toNat) := by
    intro o ho g a ha
    obtain ⟨t, ht, rfl⟩ := List.mem_map.1 ha
    exact bpolys_degree axs e o t hel ho (by rw [PetIGA.Grid.inBox_length ((mem_indices _ _).1 ht)]; simp [nens])
  have hbl : ∀ o : List Nat, o.length = axs.length → ∀ g, ∀ a ∈ field axs e o g, a.2.length = ds.length := by
    intro o ho g a ha
    rw [(hbp o ho g a ha).length_eq]; simp [hlen]
  have huo : ∀ i : Fin ds.length, (unitOrder i).length = axs.length := fun i => by simp [unitOrder, hlen]
  -- the strain is zero everywhere on the element
  have s0 : ∀ i l : Fin ds.length, ∀ xs : List ℝ, xs.length = ds.length →
      sumAt (field axs e (unitOrder i) (f l) ++ field axs e (unitOrder l) (f i)) xs = 0 := by
    intro i l xs hx
    refine sumAt_zero (axs.map fun ax => ax.p.toNat) ((lines ds e).map fun l => l.map Pt.x) _ ?_ ?_ ?_ xs (by simp [hx, hlen])
    · intro a ha
      rcases List.mem_append.1 ha with h | h
      · exact hbp _ (huo i) _ a h
      · exact hbp _ (huo l) _ a h
    · have := lines_enough hT hw hE he
      rw [haxs, List.map_map]; exact this
    · intro pts hpts
      obtain ⟨pts, hp, rfl⟩ := lift_points hpts
      rw [sumAt_append, field_eval, field_eval]
      exact hz pts hp i l
  -- its derivatives
  have s1 : ∀ i l j : Fin ds.length, ∀ xs : List ℝ, xs.length = ds.length →
      sumAt (field axs e ((unitOrder i).modify j (· + 1)) (f l)) xs + sumAt (field axs e ((unitOrder l).modify j (· + 1)) (f i)) xs = 0 := by
    intro i l j xs hx
    have := sumAt_deriv ds.length _ (fun a ha => ?_) (s0 i l) j j.2 xs hx
    · rw [← field_deriv, ← field_deriv, ← sumAt_append]
      unfold dTerms at this ⊢
      rw [← List.map_append]; exact this
    · rcases List.mem_append.1 ha with h | h
      · exact hbl _ (huo i) _ a h
      · exact hbl _ (huo l) _ a h
  -- all second derivatives are zero
  have s2 : ∀ l i j : Fin ds.length, ∀ xs : List ℝ, xs.length = ds.length → sumAt (field axs e ((unitOrder i).modify j (· + 1)) (f l)) xs = 0 := by
    intro l i j xs hx
    have h1 := s1 i l j xs hx
    have h2 := s1 j i l xs hx
    have h3 := s1 l j i xs hx
    rw [unitOrder_modify l j] at h1
    rw [unitOrder_modify i l] at h2
    rw [unitOrder_modify j i] at h3
    linarith
  -- the first derivatives are constant
  set x0 : List ℝ := List.replicate ds.length 0 with hx0
  have hx0l : x0.length = ds.length := by simp [hx0]
  have s3 : ∀ i k : Fin ds.length, ∀ xs : List ℝ, xs.length = ds.length → sumAt (field axs e (unitOrder k) (f i)) xs = sumAt (field axs e (unitOrder k) (f i)) x0 := by
    intro i k xs hx
    refine sumAt_const ds.length _ (hbl _ (huo k) _) (fun j hj ys hy => ?_) xs x0 hx hx0l
    rw [field_deriv]
    exact s2 i k ⟨j, hj⟩ ys hy
  refine ⟨fun i k => sumAt (field axs e (unitOrder k) (f i)) x0, ?_⟩
  obtain ⟨t0, ht0⟩ : ∃ t0, InBox (nens axs) t0 := ⟨axs.map fun _ => (0:Int), by
    unfold InBox nens
    rw [List.forall₂_map_left_iff, List.forall₂_map_right_iff, List.forall₂_same]
    exact fun ax hax => ⟨le_refl _, by have := (hw' ax hax).legal.degree; omega⟩⟩
  refine ⟨fun i => f i t0 - ∑ k : Fin ds.length, sumAt (field axs e (unitOrder k) (f i)) x0 *
      grev (ds.get k).ax (sp (ds.get k).ax (e.getD k 0) - (ds.get k).ax.p + t0.getD k 0), fun i l => ?_, fun t ht i => ?_⟩
  · have := s0 l i x0 hx0l
    rw [sumAt_append] at this
    linarith
  · have hc := local_const hT hw hE he (fun t => f i t - ∑ k : Fin ds.length, sumAt (field axs e (unitOrder k) (f i)) x0 *
      grev (ds.get k).ax (sp (ds.get k).ax (e.getD k 0) - (ds.get k).ax.p + t.getD k 0)) (by
      intro pts hpts j
      have hl : (pts.map Pt.x).length = ds.length := by
        rw [List.length_map, ← (mem_tensorPoints hpts).length_eq]
        simp [lines, PetIGA.Grid.inBox_length he]
      simp only [sub_mul]
      rw [list_sum_sub]
      have h1 := s3 i j _ hl
      rw [field_eval] at h1
      rw [h1]
      have h2 : ((indices (nens axs)).map fun t => (∑ k : Fin ds.length, sumAt (field axs e (unitOrder k) (f i)) x0 *
          grev (ds.get k).ax (sp (ds.get k).ax (e.getD k 0) - (ds.get k).ax.p + t.getD k 0)) * evalProd (bpolys axs e (unitOrder j) t) (pts.map Pt.x)).sum =
          ∑ k : Fin ds.length, sumAt (field axs e (unitOrder k) (f i)) x0 * ((indices (nens axs)).map fun t =>
            grev (ds.get k).ax (sp (ds.get k).ax (e.getD k 0) - (ds.get k).ax.p + t.getD k 0) * evalProd (bpolys axs e (unitOrder j) t) (pts.map Pt.x)).sum := by
        generalize indices (nens axs) = L
        induction L with
        | nil => simp
        | cons t L ih =>
          simp only [List.map_cons, List.sum_cons]
          rw [ih, Finset.sum_mul, ← Finset.sum_add_distrib]
          exact Finset.sum_congr rfl fun k _ => by ring
      rw [h2]
      have h3 : ∀ k : Fin ds.length, ((indices (nens axs)).map fun t => grev (ds.get k).ax (sp (ds.get k).ax (e.getD k 0) - (ds.get k).ax.p + t.getD k 0) *
          evalProd (bpolys axs e (unitOrder j) t) (pts.map Pt.x)).sum = if j = k then 1 else 0 := by
        intro k
        have hgl := greville_local axs e (pts.map Pt.x) hlen.symm j k hw' he' (by rw [hl, hlen])
        have hget : axs.get (k.cast hlen.symm) = (ds.get k).ax := by simp [haxs]
        rw [hget] at hgl
        exact hgl
      simp only [h3]
      simp) t t0 ht ht0
    linarith

/-! ### All elements -/

/-- A quantity that neighbouring elements share is the same for all elements. -/
theorem const_of_neighbours {α : Type} {ns : List Int} (φ : List Int → α)
    (h : ∀ e, InBox ns e → ∀ j : Nat, j < ns.length → InBox ns (e.set j (e.getD j 0 + 1)) → φ (e.set j (e.getD j 0 + 1)) = φ e) :
    ∀ e e', InBox ns e → InBox ns e' → φ e = φ e' := by
  have down : ∀ e, InBox ns e → ∀ j, j < ns.length → φ e = φ (e.set j 0) := by
    intro e he j hj
    have hl := PetIGA.Grid.inBox_length he
    have hb : ∀ x : Int, 0 ≤ x → x ≤ e.getD j 0 → InBox ns (e.set j x) := fun x h0 h1 => inBox_set he j x fun n hn => by
      unfold InBox at he
      rw [List.forall₂_iff_get] at he
      have h2 := he.2 j hj (by omega)
      rw [List.getElem?_eq_getElem hj] at hn
      simp only [Option.some.injEq] at hn
      simp only [List.get_eq_getElem] at h2
      rw [List.getD_eq_getElem?_getD, List.getElem?_eq_getElem (by omega)] at h1
      simp only [Option.getD_some] at h1
      omega
    have step : ∀ n : Nat, (n:Int) ≤ e.getD j 0 → φ (e.set j n) = φ (e.set j 0) := by
      intro n
      induction n with
      | zero => intro _; rfl
      | succ n ih =>
        intro hn
        push_cast at hn
        rw [← ih (by omega)]
        have hs : ((e.set j (n:Int)).getD j 0) = n := getD_set_self (by omega) _
        have := h (e.set j n) (hb n (by omega) (by omega)) j hj (by rw [hs, List.set_set]; exact hb _ (by omega) (by omega))
        rw [hs, List.set_set] at this
        push_cast
        exact this
    have h0 : 0 ≤ e.getD j 0 := by
      unfold InBox at he
      rw [List.forall₂_iff_get] at he
      have h2 := he.2 j hj (by omega)
      rw [List.getD_eq_getElem?_getD, List.getElem?_eq_getElem (by omega)]
      exact h2.1
    have := step (e.getD j 0).toNat (by omega)
    rw [Int.toNat_of_nonneg h0] at this
    rw [← this]
    congr 1
    rw [List.getD_eq_getElem?_getD, List.getElem?_eq_getElem (by omega)]
    simp
  have key : ∀ e, InBox ns e → φ e = φ (List.replicate ns.length 0) := by
    intro t ht
    have hl := PetIGA.Grid.inBox_length ht
    have step : ∀ m : Nat, m ≤ ns.length → φ t = φ (List.replicate m 0 ++ t.drop m) ∧ InBox ns (List.replicate m 0 ++ t.drop m) := by
      intro m
      induction m with
      | zero => intro _; simpa using ht
      | succ m ih =>
        intro hm
        obtain ⟨i1, i2⟩ := ih (by omega)
        have e : (List.replicate m 0 ++ t.drop m).set m 0 = List.replicate (m+1) 0 ++ t.drop (m+1) := by
          rw [List.set_append_right _ _ (by simp), List.length_replicate, Nat.sub_self, List.replicate_succ', List.append_assoc]
          congr 1
          rw [List.drop_eq_getElem_cons (by omega), List.set_cons_zero]
          rfl
        have hset := inBox_set i2 m 0 fun n hn => by
          have hm' : m < ns.length := by omega
          unfold InBox at ht
          rw [List.forall₂_iff_get] at ht
          have h2 := ht.2 m hm' (by omega)
          rw [List.getElem?_eq_getElem hm'] at hn
          simp only [Option.some.injEq] at hn
          simp only [List.get_eq_getElem] at h2
          omega
        rw [e] at hset
        refine ⟨?_, hset⟩
        rw [i1, down _ i2 m (by omega), e]
    have := (step ns.length (le_refl _)).1
    rw [List.drop_eq_nil_of_le (by omega), List.append_nil] at this
    exact this
  intro e e' he he'
  rw [key e he, key e' he']

theorem getD_set_ne {z : List Int} {a b : Nat} (h : a ≠ b) (x : Int) : (z.set a x).getD b 0 = z.getD b 0 := by
  rw [List.getD_eq_getElem?_getD, List.getElem?_set_ne h, ← List.getD_eq_getElem?_getD]

theorem eq_of_getD {a b : List Int} (h : a.length = b.length) (hd : ∀ k, k < a.length → a.getD k 0 = b.getD k 0) : a = b := by
  refine List.ext_getElem h fun k h1 h2 => ?_
  have := hd k h1
  rw [List.getD_eq_getElem?_getD, List.getD_eq_getElem?_getD, List.getElem?_eq_getElem h1, List.getElem?_eq_getElem h2] at this
  exact this

/-- Rigid on every element, without periodic directions: rigid. -/
theorem global_rigid {ds : List (Direction Line)} (S : Setup g2 g3 false size procs axes (ds.map Direction.ax) Ls) (hw : ∀ δ ∈ ds, WF δ.ax)
    (hper : ∀ δ ∈ ds, δ.ax.periodic = false) (u : List Int → Nat → ℝ)
    (hloc : ∀ e, InBox (ds.map fun δ => δ.ax.nel) e → ∃ (R : Fin ds.length → Fin ds.length → ℝ) (τ : Fin ds.length → ℝ), (∀ i l, R i l = -R l i) ∧
      ∀ t, InBox (nens (ds.map Direction.ax)) t → ∀ i : Fin ds.length, u (nodeOf false (ds.map Direction.ax) e t) i =
        τ i + ∑ k : Fin ds.length, R i k * grev (ds.get k).ax (sp (ds.get k).ax (e.getD k 0) - (ds.get k).ax.p + t.getD k 0)) :
    IsRigid ds.length (ds.map Direction.ax) (fun z l => if h : l < ds.length then grev (ds.get ⟨l, h⟩).ax (z.getD l 0) else 0) u := by
  have hw' : ∀ ax ∈ ds.map Direction.ax, WF ax ∧ ax.periodic = false := by
    intro ax hax
    obtain ⟨δ, hδ, rfl⟩ := List.mem_map.1 hax
    exact ⟨hw δ hδ, hper δ hδ⟩
  set axs := ds.map Direction.ax with haxs
  have hlen : axs.length = ds.length := by simp [haxs]
  have hget : ∀ k : Fin ds.length, axs.get (k.cast hlen.symm) = (ds.get k).ax := fun k => by simp [haxs]
  have hmap : (ds.map fun δ => δ.ax.nel) = axs.map Axis.nel := by rw [haxs, List.map_map]; rfl
  rw [hmap] at hloc
  have hnode : ∀ {e t : List Int}, InBox (axs.map Axis.nel) e → InBox (nens axs) t → ∀ k : Fin ds.length,
      (nodeOf false axs e t).getD k 0 = sp (ds.get k).ax (e.getD k 0) - (ds.get k).ax.p + t.getD k 0 ∧ 0 ≤ t.getD k 0 ∧ t.getD k 0 ≤ (ds.get k).ax.p ∧
        0 ≤ e.getD k 0 ∧ e.getD k 0 < (ds.get k).ax.nel := by
    intro e t he ht k
    have := nodeOf_getD axs hw' he ht (k.cast hlen.symm)
    rw [hget k] at this
    exact this
  choose! R τ hRt using hloc
  have ht0 : InBox (nens axs) (axs.map fun _ => (0:Int)) := by
    unfold InBox nens
    rw [List.forall₂_map_left_iff, List.forall₂_map_right_iff, List.forall₂_same]
    exact fun ax hax => ⟨le_refl _, by have := (hw' ax hax).1.legal.degree; omega⟩
  have hset : ∀ {t : List Int}, InBox (nens axs) t → ∀ (k : Fin ds.length) (x : Int), 0 ≤ x → x ≤ (ds.get k).ax.p → InBox (nens axs) (t.set k x) := by
    intro t ht k x x0 x1
    refine inBox_set ht k x fun n hn => ?_
    have hk : (k:Nat) < axs.length := by rw [hlen]; exact k.2
    unfold nens at hn
    rw [List.getElem?_map, List.getElem?_eq_getElem hk] at hn
    simp only [Option.map_some, Option.some.injEq] at hn
    have : axs[(k:Nat)] = (ds.get k).ax := hget k
    rw [this] at hn
    omega
  have hz0 : ∀ k : Nat, (axs.map fun _ => (0:Int)).getD k 0 = 0 := by
    intro k
    rw [List.getD_eq_getElem?_getD, List.getElem?_map]
    cases axs[k]? <;> rfl
  -- neighbouring elements have the same motion
  have nb : ∀ e, InBox (axs.map Axis.nel) e → ∀ j : Nat, j < (axs.map Axis.nel).length → InBox (axs.map Axis.nel) (e.set j (e.getD j 0 + 1)) →
      (R (e.set j (e.getD j 0 + 1)), τ (e.set j (e.getD j 0 + 1))) = (R e, τ e) := by
    intro e he j hj he2
    set e' := e.set j (e.getD j 0 + 1) with he'
    have hj' : j < ds.length := by simpa [hlen] using hj
    obtain ⟨J, rfl⟩ : ∃ J : Fin ds.length, j = J := ⟨⟨j, hj'⟩, rfl⟩
    have hel : e.length = ds.length := by rw [PetIGA.Grid.inBox_length he]; simp [hlen]
    have hwJ := hw _ (List.get_mem ds J)
    have eJ : e'.getD J 0 = e.getD J 0 + 1 := getD_set_self (by omega) _
    have ek : ∀ k : Fin ds.length, k ≠ J → e'.getD k 0 = e.getD k 0 := fun k hk => getD_set_ne (fun h => hk (Fin.ext h.symm)) _
    have hb := (hnode he ht0 J).2.2.2
    have hb2 := (hnode he2 ht0 J).2.2.2
    rw [eJ] at hb2
    have hst := sp_step hwJ.toPreWF hb.1 hb2.2
    have hsl := sp_lt hwJ.toPreWF (i := e.getD J 0) (j := e.getD J 0 + 1) hb.1 (by omega) hb2.2
    set s := sp (ds.get J).ax (e.getD J 0 + 1) - sp (ds.get J).ax (e.getD J 0) with hs
    -- the values at a shared node
    have shared : ∀ t, InBox (nens axs) t → t.getD J 0 = 0 → ∀ i : Fin ds.length,
        τ e i + ∑ k : Fin ds.length, R e i k * grev (ds.get k).ax ((nodeOf false axs e' t).getD k 0) =
        τ e' i + ∑ k : Fin ds.length, R e' i k * grev (ds.get k).ax ((nodeOf false axs e' t).getD k 0) := by
      intro t ht tJ i
      have htl : t.length = ds.length := by rw [PetIGA.Grid.inBox_length ht]; simp [nens, hlen]
      have ht2 := hset ht J s (by omega) (by omega)
      have hsame : nodeOf false axs e (t.set J s) = nodeOf false axs e' t := by
        refine eq_of_getD ?_ fun k hk => ?_
        · have a1 := PetIGA.Grid.inBox_length (nodeOf_inBox S he ((mem_indices _ _).2 ht2))
          have a2 := PetIGA.Grid.inBox_length (nodeOf_inBox S he2 ((mem_indices _ _).2 ht))
          rw [a1, a2]
        · rw [PetIGA.Grid.inBox_length (nodeOf_inBox S he ((mem_indices _ _).2 ht2))] at hk
          have hk' : k < ds.length := by simpa [hlen] using hk
          have a1 := (hnode he ht2 ⟨k, hk'⟩).1
          have a2 := (hnode he2 ht ⟨k, hk'⟩).1
          simp only at a1 a2
          rw [a1, a2]
          by_cases hkJ : (⟨k, hk'⟩ : Fin ds.length) = J
          · have hkJ' : k = J := congrArg Fin.val hkJ
            rw [hkJ, hkJ', eJ, getD_set_self (by omega), tJ]
            omega
          · have := ek ⟨k, hk'⟩ hkJ
            simp only at this
            rw [this, getD_set_ne (fun h => hkJ (Fin.ext h.symm))]
      have h1 := (hRt e he).2 _ ht2 i
      have h2 := (hRt e' he2).2 _ ht i
      rw [hsame] at h1
      rw [h1] at h2
      have f1 : ∀ k : Fin ds.length, sp (ds.get k).ax (e.getD k 0) - (ds.get k).ax.p + (t.set J s).getD k 0 = (nodeOf false axs e' t).getD k 0 := by
        intro k; rw [← hsame, (hnode he ht2 k).1]
      have f2 : ∀ k : Fin ds.length, sp (ds.get k).ax (e'.getD k 0) - (ds.get k).ax.p + t.getD k 0 = (nodeOf false axs e' t).getD k 0 := by
        intro k; rw [(hnode he2 ht k).1]
      simp only [f1, f2] at h2
      exact h2
    have s0 := shared _ ht0 (hz0 _)
    -- the entries outside column `J`
    have col : ∀ i k : Fin ds.length, k ≠ J → R e i k = R e' i k := by
      intro i k hk
      have hwk := hw _ (List.get_mem ds k)
      have hp := hwk.legal.degree
      have htk := hset ht0 k 1 (by omega) hp
      have hkJ : (k:Nat) ≠ J := fun h => hk (Fin.ext h)
      have s1 := shared _ htk (by rw [getD_set_ne hkJ, hz0]) i
      have hsub : ∀ Q : Fin ds.length → ℝ, ∑ l : Fin ds.length, Q l * grev (ds.get l).ax ((nodeOf false axs e' ((axs.map fun _ => (0:Int)).set k 1)).getD l 0) -
          ∑ l : Fin ds.length, Q l * grev (ds.get l).ax ((nodeOf false axs e' (axs.map fun _ => (0:Int))).getD l 0) =
          Q k * (grev (ds.get k).ax (sp (ds.get k).ax (e'.getD k 0) - (ds.get k).ax.p + 1) - grev (ds.get k).ax (sp (ds.get k).ax (e'.getD k 0) - (ds.get k).ax.p)) := by
        intro Q
        rw [← Finset.sum_sub_distrib, Finset.sum_eq_single k]
        · rw [(hnode he2 htk k).1, (hnode he2 ht0 k).1, getD_set_self (by simp [hlen]), hz0, add_zero]
          ring
        · intro l _ hl
          have : (k:Nat) ≠ l := fun h => hl (Fin.ext h.symm)
          rw [(hnode he2 htk l).1, (hnode he2 ht0 l).1, getD_set_ne this, sub_self]
        · simp
      have q1 := hsub (R e i)
      have q2 := hsub (R e' i)
      have s0i := s0 i
      have hek := (hnode he2 ht0 k).2.2.2
      obtain ⟨b1, b2, b3⟩ := sp_elem hwk.toPreWF hek.1 hek.2
      have hlt := grev_lt hwk (i := sp (ds.get k).ax (e'.getD k 0) - (ds.get k).ax.p) (j := sp (ds.get k).ax (e'.getD k 0) - (ds.get k).ax.p + 1)
        (by omega) (by omega) (by omega)
      have : (R e i k - R e' i k) * (grev (ds.get k).ax (sp (ds.get k).ax (e'.getD k 0) - (ds.get k).ax.p + 1) -
          grev (ds.get k).ax (sp (ds.get k).ax (e'.getD k 0) - (ds.get k).ax.p)) = 0 := by
        rw [sub_mul, ← q1, ← q2]; linarith
      rcases mul_eq_zero.1 this with h | h
      · linarith
      · linarith
    have hR : R e' = R e := by
      funext i k
      by_cases hk : k = J
      · by_cases hi : i = J
        · have a1 := (hRt e he).1 i i
          have a2 := (hRt e' he2).1 i i
          rw [hk, ← hi]; linarith
        · rw [(hRt e he).1 i k, (hRt e' he2).1 i k, col k i hi]
      · exact (col i k hk).symm
    have hτ : τ e' = τ e := by
      funext i
      have := s0 i
      rw [hR] at this
      linarith
    rw [hR, hτ]
  have same := const_of_neighbours (fun e => (R e, τ e)) nb
  obtain ⟨e0, he0⟩ : ∃ e0, InBox (axs.map Axis.nel) e0 := ⟨axs.map fun _ => (0:Int), by
    unfold InBox
    rw [List.forall₂_map_left_iff, List.forall₂_map_right_iff, List.forall₂_same]
    exact fun ax hax => ⟨le_refl _, nel_pos (hw' ax hax).1 ((S.cond ax hax).1 rfl)⟩⟩
  refine ⟨τ e0, R e0, (hRt e0 he0).1, fun z hz i => ?_⟩
  obtain ⟨e, t, he, ht, rfl⟩ := node_covered (fun ax h => (hw' ax h).1) S.cond hz
  rw [(hRt e he).2 t ht i]
  have := same e e0 he he0
  simp only [Prod.mk.injEq] at this
  rw [this.1, this.2]
  congr 1
  refine Finset.sum_congr rfl fun k _ => ?_
  beta_reduce
  rw [dif_pos k.2, (hnode he ht k).1]

/-- Rigid motions of the points are combinations of the modes. -/
theorem rigid_span {axs : List (Axis ℝ)} {d : Nat} (h1 : 1 ≤ d) (h3 : d ≤ 3) {x : Int → ℝ} {X : List Int → Nat → ℝ}
    (hX : Represents axs Ls d x X) {v : Int → ℝ} (hv : IsRigid d axs X fun z i => v (Blk.unknown Ls axs d z i)) :
    ∃ a : Nat → ℝ, ∀ z, InBox (axs.map Axis.nnp) z → ∀ i : Fin d,
      v (Blk.unknown Ls axs d z i) = ((rigidModes d x).zipIdx.map fun m => a m.2 * m.1 (Blk.unknown Ls axs d z i)).sum := by
  obtain ⟨τ, R, hR, hv⟩ := hv
  beta_reduce at hv
  have hx : ∀ z, InBox (axs.map Axis.nnp) z → ∀ j : Nat, j < d → ∀ k : Int, k = Blk.unknown Ls axs d z j → x k = X z j := by
    intro z hz j hj k hk
    rw [hk, ← hX z j hz hj]
    rfl
  have hun : ∀ (z : List Int), ∃ n : Int, ∀ j : Nat, Blk.unknown Ls axs d z j = d * n + j := fun z => ⟨_, fun _ => rfl⟩
  have hdiag : ∀ i, R i i = 0 := fun i => by have := hR i i; linarith
  interval_cases d
  · refine ⟨fun _ => τ 0, fun z hz i => ?_⟩
    rw [hv z hz i]
    have : i = 0 := Subsingleton.elim _ _
    subst this
    simp [rigidModes, hdiag]
  · refine ⟨fun n => match n with | 0 => τ 0 | 1 => τ 1 | _ => R 1 0, fun z hz i => ?_⟩
    obtain ⟨n, hn⟩ := hun z
    rw [hv z hz i, hn]
    have x0 := hx z hz 0 (by omega) (2 * n) (by rw [hn]; norm_num)
    have x1 := hx z hz 1 (by omega) (2 * n + 1) (by rw [hn]; norm_num)
    have r1 : (2 * n + 1) % 2 = 1 := by omega
    have e01 := hR 0 1
    fin_cases i <;> simp [rigidModes, Fin.sum_univ_two, x0, x1, r1, hdiag, e01]
  · refine ⟨fun n => match n with | 0 => τ 0 | 1 => τ 1 | 2 => τ 2 | 3 => R 0 1 | 4 => R 2 1 | _ => R 0 2, fun z hz i => ?_⟩
    obtain ⟨n, hn⟩ := hun z
    rw [hv z hz i, hn]
    have x0 := hx z hz 0 (by omega) (3 * n) (by rw [hn]; norm_num)
    have x1 := hx z hz 1 (by omega) (3 * n + 1) (by rw [hn]; norm_num)
    have x2 := hx z hz 2 (by omega) (3 * n + 2) (by rw [hn]; norm_num)
    have r1 : (3 * n + 1) % 3 = 1 := by omega
    have r2 : (3 * n + 2) % 3 = 2 := by omega
    have s1 : 3 * n + 1 + 1 = 3 * n + 2 := by ring
    have s2 : 3 * n + 2 - 1 = 3 * n + 1 := by ring
    have e10 := hR 1 0
    have e12 := hR 1 2
    have e20 := hR 2 0
    fin_cases i <;> simp [rigidModes, Fin.sum_univ_three, x0, x1, x2, r1, r2, s1, s2, hdiag, e10, e12, e20] <;> ring

/-! ### The null space -/

/-- Without a geometry `IGACreateRigidBody` gives the modes of the Greville points. -/
theorem parametric_modes {ds : List (Direction Line)} (S : Setup g2 g3 false size procs axes (ds.map Direction.ax) Ls) (hw : ∀ δ ∈ ds, WF δ.ax)
    (h1 : 1 ≤ ds.length) (h3 : ds.length ≤ 3) (huge : ℝ) (xyz : Nat → Option (List ℝ)) :
    ∃ x X, createRigidBody huge (ds.map fun _ => .bspline) 0 ds.length Ls xyz = .ok (rigidModes ds.length x) ∧
      Represents (ds.map Direction.ax) Ls ds.length x X ∧
      ∀ z, InBox ((ds.map Direction.ax).map Axis.nnp) z → ∀ l : Fin ds.length, X z l = grev (ds.get l).ax (z.getD l 0) := by
  obtain ⟨outs, X, o1, -, o2, o3⟩ := C50_parametric S huge (ds.map fun _ => .bspline) (by
    rw [List.forall₂_map_left_iff, List.forall₂_map_right_iff, List.forall₂_same]
    exact fun δ hδ => ⟨(S.cond δ.ax (List.mem_map_of_mem hδ)).1 rfl, by simp⟩) 0 xyz (.inl rfl)
  have hnsd : nsdOf (ds.map Direction.ax).length 0 = ds.length := by
    unfold nsdOf
    rw [List.length_map]; omega
  have hnsd' : nsdOf ds.length 0 = ds.length := by unfold nsdOf; omega
  rw [hnsd] at o2
  refine ⟨_, X, by unfold createRigidBody; rw [o1]; simp only [Res.bind, hnsd']; rfl, o2, fun z hz l => ?_⟩
  have hl : (l:Nat) < ds.length := l.2
  have hlz : z.length = ds.length := by rw [PetIGA.Grid.inBox_length hz]; simp
  have := ((o3 z hz).1 l (ds.get l).ax .bspline (z.getD l 0) (by simp) (by simp [hl]) (by
    rw [List.getD_eq_getElem?_getD, List.getElem?_eq_getElem (by omega)]; rfl)).1 (by simp)
  have hpR : ((ds.get l).ax.p : ℝ) ≠ 0 := by
    have := (hw _ (List.get_mem ds l)).legal.degree
    exact_mod_cast (by omega : (ds.get l).ax.p ≠ 0)
  unfold grev
  rw [eq_div_iff hpR, mul_comm, this]
  simp [shiftOf, knotSum]

/-- **C89, completeness**: without a geometry and without periodic directions, and with more than `p` quadrature points in
every direction, the null space of the matrix assembled for the elastic form is exactly the span of the vectors of
`IGACreateRigidBody`. -/
theorem C89_null_space {ds : List (Direction Line)} (S : Setup g2 g3 false size procs axes (ds.map Direction.ax) Ls)
    (hT : ∀ δ ∈ ds, δ.Tabulated) (hs : ∀ δ ∈ ds, IsSpline δ) (hE : ∀ δ ∈ ds, Enough δ) (hper : ∀ δ ∈ ds, δ.ax.periodic = false) {nsd : Nat}
    {c : List Int → PtIn ds.length nsd (Fin (nenOf (ds.map Direction.ax)))} (hc : ∀ e, FirstOrder (c e)) (hg : ∀ e, (c e).geometry = none)
    {elt : List Int → Elt ℝ (PtData ds.length nsd (nenOf (ds.map Direction.ax)))} (hI : Interior ds ds.length c elt)
    (cb : PtData ds.length nsd (nenOf (ds.map Direction.ax)) → (Int → ℝ) → Res (Int → ℝ))
    (hK : Fills (unknowns (ds.map Direction.ax) ds.length * unknowns (ds.map Direction.ax) ds.length) cb elastic)
    (hist) (pw) (w) (huge : ℝ) (xyz : Nat → Option (List ℝ)) :
    ∃ ms A, createRigidBody huge (ds.map fun _ => .bspline) 0 ds.length Ls xyz = .ok ms ∧
      computeMatrix Ls hist ds.length ⟨elt, pw, w⟩ cb = .ok A ∧
      ∀ v : Int → ℝ, (∀ i : Nat, i < total (ds.map Direction.ax) ds.length →
          ∑ j ∈ Finset.range (total (ds.map Direction.ax) ds.length), A ((i:Int), (j:Int)) * v j = 0) ↔
        ∃ a : Nat → ℝ, ∀ i : Nat, i < total (ds.map Direction.ax) ds.length → v i = (ms.zipIdx.map fun m => a m.2 * m.1 i).sum := by
  obtain ⟨h1, h3, hw⟩ := setup_facts S
  have hJ : ∀ e, InBox (ds.map fun δ => δ.ax.nel) e → ∀ q ∈ (elt e).points none, 0 < q.detJac := by
    intro e he q hq
    obtain ⟨mem, hm⟩ := hI.points e he
    obtain ⟨pts, hp, N, m, o, -, ho, rfl⟩ := (tabulated_points rfl h1 h3 hT hs hw (c e) he mem hm).2 q hq
    exact detJac_pos ho (lines_J hw he (mem_tensorPoints hp)) (hc e).interior (.inl (hg e))
  obtain ⟨ms, A, m1, a1, -, a2⟩ := C89_rigid_body_partial S hT hs hper hc hg hI cb elastic hK elastic_strain hist pw w huge xyz
  obtain ⟨x, X, m2, hX, hXg⟩ := parametric_modes S hw h1 h3 huge xyz
  have hms : ms = rigidModes ds.length x := by rw [m1] at m2; simpa using m2
  obtain ⟨A', a1', a3⟩ := elastic_null S hT hs hI hJ cb hK hist pw w
  have hAA : A = A' := by rw [a1] at a1'; simpa using a1'
  subst hAA
  refine ⟨ms, A, m1, a1, fun v => ⟨fun hv => ?_, fun ⟨a, hv⟩ i hi => ?_⟩⟩
  · have hstr := a3 v hv
    have hrig := global_rigid S hw hper (fun z c => v (Blk.unknown Ls (ds.map Direction.ax) ds.length z c)) fun e he => by
      refine local_rigid hT hw hE he (fun i t => v (Blk.unknown Ls (ds.map Direction.ax) ds.length (nodeOf false (ds.map Direction.ax) e t) i)) ?_
      intro pts hpts i l
      obtain ⟨mem, hmm⟩ := hI.points e he
      obtain ⟨q, hq, hqp⟩ := (tabulated_points rfl h1 h3 hT hs hw (c e) he mem hmm).1 pts hpts
      have := hstr e he q hq i l
      rw [combine_none (hc e) (hg e) hqp, combine_none (hc e) (hg e) hqp] at this
      exact this
    have hrig' : IsRigid ds.length (ds.map Direction.ax) X fun z c => v (Blk.unknown Ls (ds.map Direction.ax) ds.length z c) := by
      obtain ⟨t, R, r1, r2⟩ := hrig
      refine ⟨t, R, r1, fun z hz i => ?_⟩
      rw [r2 z hz i]
      congr 1
      refine Finset.sum_congr rfl fun k _ => ?_
      beta_reduce
      rw [dif_pos k.2, hXg z hz k]
    obtain ⟨a, ha⟩ := rigid_span h1 h3 hX hrig'
    refine ⟨a, fun i hi => ?_⟩
    obtain ⟨z, l, hz, hl, e⟩ := unknown_onto S (dof := ds.length) (i := (i:Int)) (by omega) (by exact_mod_cast hi)
    rw [e, hms]
    exact ha z hz ⟨l, hl⟩
  · rw [← a2 (fun i => (ms.zipIdx.map fun m => a m.2 * m.1 i).sum) ⟨a, fun _ => rfl⟩ i hi]
    exact Finset.sum_congr rfl fun j hj => by rw [hv j (Finset.mem_range.1 hj)]

end PetIGA.Itg
