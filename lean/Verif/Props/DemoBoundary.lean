import Verif.Model.DemoBoundary
import Verif.Props.NitscheDefinite
import Verif.Props.SideValue
/-
C125: demo/BoundaryIntegral.c.  The system it assembles has exactly one solution, the linear function it compares with.
-/
set_option linter.unusedSectionVars false
namespace PetIGA.Demo
open PetIGA.Quad PetIGA.Drv PetIGA.Spec PetIGA.Ax PetIGA.Lay PetIGA.Asm PetIGA.Rule PetIGA.Grid PetIGA.Part PetIGA.Ker PetIGA.PCA PetIGA.Itg
open Polynomial

variable {g2 : Guess2} {g3 : Guess3} {size : Int} {procs : List Int} {axes : List (Axis ℝ)} {Ls : List (Layout ℝ)}

/-! ### The callback and the conditions -/

theorem put_fold {n : Nat} (v : Fin n → ℝ) : ∀ (l : List (Fin n)) (F : Int → ℝ) (a : Fin n),
    (l.foldl (fun F (a : Fin n) => put F ((a:Nat) : Int) (v a)) F) ((a:Nat) : Int) = if a ∈ l then v a else F ((a:Nat) : Int)
  | [], F, a => by simp
  | b :: l, F, a => by
    rw [List.foldl_cons, put_fold v l]
    by_cases h : a ∈ l
    · simp [h]
    · by_cases hb : a = b
      · subst hb; simp [h, put]
      · have : ((a:Nat):Int) ≠ ((b:Nat):Int) := fun h' => hb (Fin.ext (by exact_mod_cast h'))
        simp [h, put, hb, this]

/-- The entries the callback gives to the matrix and to the vector. -/
noncomputable def boundaryMat {d n : Nat} (p : BPt d n) : Fin n → Fin n → ℝ :=
  if p.1 then fun _ _ => 0 else fun a b => ∑ i, p.2.shape.t1 i a * p.2.shape.t1 i b
noncomputable def boundaryVec {d n : Nat} (p : BPt d n) : Fin n → ℝ := if p.1 then p.2.shape.t0 else fun _ => 0

theorem boundary_fills {d n m : Nat} (hm : m = n) :
    FillsSys m m (boundarySystem (d := d) (n := n)) (fun p => rowMajor (boundaryMat p)) (fun p => entry (boundaryVec p)) := by
  subst hm
  rintro ⟨bd, p⟩ A B hA hB
  cases bd with
  | false =>
    have := fills (P := PtData d d m) rfl (fun p K F => boundarySystem (false, p) K F) (fun p a b => ∑ i, p.shape.t1 i a * p.shape.t1 i b)
      (fun p _ => 0) (fun p K F => by simp [boundarySystem, interiorLaplace, dot_eq])
    exact this p A B hA hB
  | true =>
    refine ⟨A, _, rfl, fun i h0 hi => ?_, fun i h0 hi => ?_⟩
    · rw [hA i h0 hi]
      obtain ⟨j, rfl⟩ := Int.eq_ofNat_of_zero_le h0
      have hj : j < m * m := by exact_mod_cast hi
      have hm : 0 < m := Nat.pos_of_mul_pos_left (Nat.lt_of_le_of_lt (Nat.zero_le _) hj)
      have q2 := rowMajor_at (boundaryMat (true, p)) ⟨j / m, Nat.div_lt_of_lt_mul hj⟩ ⟨j % m, Nat.mod_lt _ hm⟩
      simp only at q2
      rw [show j / m * m + j % m = j by rw [Nat.mul_comm]; exact Nat.div_add_mod j m] at q2
      exact Eq.trans (by simp [boundaryMat]) q2.symm
    · obtain ⟨j, rfl⟩ := Int.eq_ofNat_of_zero_le h0
      have hj : j < m := by exact_mod_cast hi
      have := put_fold (fun a => p.shape.t0 a * 1) (List.finRange m) B ⟨j, hj⟩
      refine this.trans ?_
      unfold entry
      simp [hj, boundaryVec]

theorem boundary_sideValue {axis : Nat} (h3 : axis < 3) (side : Bool) (a : Nat) (s : Bool) :
    SideValue (boundaryConditions axis side) a s 0 = if a = axis ∧ s = !side then some 1 else none := by
  have h : ((axis:Int) = (a:Int)) ↔ a = axis := ⟨fun h => by exact_mod_cast h.symm, fun h => by exact_mod_cast h.symm⟩
  have h0 : axis = 0 ∨ axis = 1 ∨ axis = 2 := by omega
  cases side <;> cases s <;> by_cases e : a = axis <;> rcases h0 with rfl | rfl | rfl <;>
    simp_all [SideValue, boundaryConditions, Form.valueEvents, inForce, BCEvent.legal]

theorem boundary_visit {axis : Nat} (h3 : axis < 3) (side : Bool) (a : Nat) (s : Bool) :
    (Form.run Form.create (boundaryConditions axis side) : Form.Form ℝ).visit ((a:Nat):Int) (((if s then 1 else 0 : Nat)) : Int) = true ↔
      a = axis ∧ s = side := by
  rw [Form.C30_visit]
  have h : ((axis:Int) = (a:Int)) ↔ a = axis := ⟨fun h => by exact_mod_cast h.symm, fun h => by exact_mod_cast h.symm⟩
  have h0 : axis = 0 ∨ axis = 1 ∨ axis = 2 := by omega
  cases side <;> cases s <;> by_cases e : a = axis <;> rcases h0 with rfl | rfl | rfl <;>
    simp_all [boundaryConditions, Form.visitedSide]

theorem boundary_noLoads (axis : Nat) (side : Bool) : NoLoads (boundaryConditions axis side) := by
  intro a s k v h
  have h := mem_loadEvents (inForce_mem h)
  unfold boundaryConditions at h
  simp at h

/-- The nodes of the side opposite to the boundary form have the value 1, the others are free. -/
theorem boundary_prescribed {axs : List (Axis ℝ)} (hw : ∀ ax ∈ axs, WF ax) (ho : ∀ ax ∈ axs, OpenEnds ax) {axis : Nat} (h3 : axis < 3) {ax : Axis ℝ}
    (hax : axs[axis]? = some ax) (hper : ax.periodic = false) (side : Bool) (z : List Int) :
    Fix.prescribedAt axs (boundaryConditions axis side) none (z, ((0:Nat):Int)) = if z[axis]? = some (sideNode ax (!side)) then some 1 else none := by
  split
  · rename_i hz
    obtain ⟨w, w1, w2⟩ := side_prescribed hw ho hax hper hz (k := 0) (v := 1) ((boundary_sideValue h3 side axis (!side)).trans (by simp)) none
    rw [w1]
    rcases w2 with rfl | ⟨a, s, -, ha, -, -, -, h⟩
    · rfl
    · rw [boundary_sideValue h3, if_neg (by omega)] at h
      cases h
  · rename_i hz
    unfold Fix.prescribedAt nodePrescribed
    rw [List.findSome?_eq_none_iff.2, Option.map_none]
    rintro ⟨a, s⟩ _
    split
    · rename_i hon
      obtain ⟨ax', q1, -, q3⟩ := (onGridSide_iff hw ho z (a, s)).1 hon
      have := boundary_sideValue h3 side a s
      rw [if_neg (by
        rintro ⟨rfl, rfl⟩
        rw [hax] at q1
        cases q1
        exact hz q3)] at this
      exact this
    · rfl

/-! ### The linear function -/

/-- The coefficient of a polynomial at the node of a clamped side is its value there. -/
theorem polyCoef_side {ax : Axis ℝ} (h : WF ax) (ho : OpenEnds ax) (hper : ax.periodic = false) {side : Bool} (hc : ClampedAt ax side) (P : ℝ[X])
    (hP : P.natDegree ≤ ax.p.toNat) : Bsp.polyCoef ax.U ax.p.toNat P (sideNode ax side) = P.eval (sideEnd ax side) := by
  obtain ⟨s1, s2, s3⟩ := sideElem_sp h ho side
  have hp := h.legal.degree
  have hm := h.legal.enough
  have hn := (nnp_bounds h).2.2.1 hper
  obtain ⟨r0, hr0⟩ : ∃ r0 : Nat, (r0 : Int) = if side then ax.p else 0 := ⟨(if side then ax.p else 0).toNat, by split <;> omega⟩
  have hr1 : r0 < ax.p.toNat + 1 := by split at hr0 <;> omega
  have key : ∀ P : ℝ[X], P.natDegree ≤ ax.p.toNat → Bsp.polyCoef ax.U ax.p.toNat P (sideNode ax side) *
      (bpoly ax (sideElem ax side) r0).eval (sideEnd ax side) = P.eval (sideEnd ax side) := by
    intro P hP
    have hr := bpoly_repr h s2 s3 P hP 0 (sideEnd ax side)
    simp only [Function.iterate_zero, id_eq] at hr
    rw [← hr, Finset.sum_eq_single r0]
    · congr 2
      rw [s1, hr0]
      cases side
      · simp [sideNode]
      · simp [sideNode]; omega
    · intro r hr hne
      have hr := Finset.mem_range.1 hr
      rw [show bpoly ax (sideElem ax side) r = bpoly ax (sideElem ax side) ((r:Int).toNat) by simp,
        bpoly_side h ho hc (by omega) (by omega) (by omega), mul_zero]
    · intro hne
      exact absurd (Finset.mem_range.2 hr1) hne
  have h1 := key 1 (by simp)
  rw [Bsp.polyCoef_one, one_mul, eval_one] at h1
  have := key P hP
  rwa [h1, mul_one] at this

/-- The linear function with the value 1 at the side without boundary form and slope ±1. -/
noncomputable def ramp (ax : Axis ℝ) (side : Bool) : ℝ[X] := if side then 1 + (X - C (domain ax).1) else 1 + (C (domain ax).2 - X)

/-- It as a product over the directions. -/
noncomputable def rampTerm (d : Nat) (axis : Nat) (L : ℝ[X]) : List ℝ[X] := (List.replicate d (1 : ℝ[X])).set axis L

theorem ramp_degree (ax : Axis ℝ) (side : Bool) : (ramp ax side).natDegree ≤ 1 := by
  unfold ramp
  split <;> compute_degree

theorem ramp_derivative (ax : Axis ℝ) (side : Bool) : derivative (ramp ax side) = C (if side then 1 else -1) := by
  unfold ramp
  split <;> simp

theorem ramp_end (ax : Axis ℝ) (side : Bool) : (ramp ax side).eval (sideEnd ax (!side)) = 1 := by
  unfold ramp sideEnd
  cases side <;> simp

theorem rampTerm_degree {deg : List Nat} (h : ∀ d ∈ deg, 1 ≤ d) (axis : Nat) {L : ℝ[X]} (hL : L.natDegree ≤ 1) :
    List.Forall₂ (fun p d => p.natDegree ≤ d) (rampTerm deg.length axis L) deg := by
  unfold rampTerm
  rw [List.forall₂_iff_get]
  refine ⟨by simp, fun j h1 h2 => ?_⟩
  simp only [List.get_eq_getElem, List.getElem_set, List.getElem_replicate]
  split_ifs
  · exact hL.trans (h _ (List.getElem_mem _))
  · simp

theorem termCoef_one : ∀ (axs : List (Axis ℝ)) (n : Nat) (z : List Int), termCoef axs (List.replicate n (1 : ℝ[X])) z = 1
  | [], _, _ => rfl
  | _ :: _, 0, _ => rfl
  | _ :: _, _ + 1, [] => rfl
  | ax :: axs, n + 1, i :: is => by
    rw [List.replicate_succ]
    show Bsp.polyCoef _ _ 1 _ * _ = 1
    rw [Bsp.polyCoef_one, termCoef_one axs n is, one_mul]

theorem termCoef_ramp (L : ℝ[X]) : ∀ (axs : List (Axis ℝ)) (n axis : Nat) (z : List Int) {ax : Axis ℝ} {i : Int}, axs.length = n → z.length = n →
    axs[axis]? = some ax → z[axis]? = some i → termCoef axs (rampTerm n axis L) z = Bsp.polyCoef ax.U ax.p.toNat L i
  | [], _, _, _, _, _, _, _, h, _ => by simp at h
  | _ :: _, _, _, [], _, _, _, _, _, h => by simp at h
  | a :: axs, n + 1, 0, i :: is, ax, j, hl, hz, h1, h2 => by
    simp only [List.getElem?_cons_zero, Option.some.injEq] at h1 h2
    subst h1 h2
    unfold rampTerm
    rw [List.replicate_succ, List.set_cons_zero]
    show _ * _ = _
    rw [termCoef_one, mul_one]
  | a :: axs, n + 1, k + 1, i :: is, ax, j, hl, hz, h1, h2 => by
    have ih := termCoef_ramp L axs n k is (by simpa using hl) (by simpa using hz) (by simpa using h1) (by simpa using h2)
    unfold rampTerm at ih ⊢
    rw [List.replicate_succ, List.set_cons_succ]
    show Bsp.polyCoef _ _ 1 _ * _ = _
    rw [Bsp.polyCoef_one, one_mul, ih]
  | _ :: _, 0, _, _, _, _, hl, _, _, _ => by simp at hl

theorem ramp_lap (d : Nat) (axis : Fin d) (xs : List ℝ) (h : xs.length = d) (ax : Axis ℝ) (side : Bool) :
    lap (d := d) [rampTerm d axis (ramp ax side)] xs = 0 := by
  unfold lap
  refine Finset.sum_eq_zero fun i _ => ?_
  simp only [List.map_cons, List.map_nil, List.sum_cons, List.sum_nil, add_zero]
  have hi := i.isLt
  refine evalProd_factor (i := i) ?_ (by omega)
  have hl : (rampTerm d axis (ramp ax side)).length = d := by simp [rampTerm]
  rw [derivs_get _ i (derivs_len _ i hl), derivs_get _ i hl]
  unfold rampTerm
  by_cases e : (i:Nat) = axis
  · rw [← e]
    simp [ramp_derivative, hi]
  · rw [List.getElem?_set_ne (Ne.symm e)]
    simp

theorem ramp_slope (d : Nat) (axis i : Fin d) (xs : List ℝ) (h : xs.length = d) (ax : Axis ℝ) (side : Bool) :
    evalProd (derivs (rampTerm d axis (ramp ax side)) (unitOrder i)) xs = if i = axis then (if side then 1 else -1) else 0 := by
  have hl : (rampTerm d axis (ramp ax side)).length = d := by simp [rampTerm]
  have hi := i.isLt
  by_cases e : i = axis
  · subst e
    rw [if_pos rfl]
    have : derivs (rampTerm d i (ramp ax side)) (unitOrder i) = (List.replicate d (1 : ℝ[X])).set i (C (if side then 1 else -1)) := by
      refine List.ext_getElem? fun j => ?_
      rw [derivs_get _ i hl]
      unfold rampTerm
      by_cases hj : j = i
      · subst hj
        simp [ramp_derivative]
      · simp only [List.getElem?_set_ne (Ne.symm hj), hj, if_false]
        simp
    rw [this, evalProd_set _ d i xs h hi]
    split <;> simp
  · rw [if_neg e]
    refine evalProd_factor (i := i) ?_ (by omega)
    rw [derivs_get _ i hl]
    unfold rampTerm
    rw [List.getElem?_set_ne (fun h => e (Fin.ext h.symm))]
    simp

/-! ### The residual -/

/-- The integrand of the residual. -/
theorem boundary_integrand (axs : List (Axis ℝ)) (e : List Int) {d : Nat} (p : BPt d (nenOf axs)) (u w : List Int → Nat → ℝ) :
    (∑ a : Fin (nenOf axs), ∑ b : Fin (nenOf axs), loc axs w e a * boundaryMat p a b * loc axs u e b) -
        ∑ a : Fin (nenOf axs), loc axs w e a * boundaryVec p a =
      if p.1 then - combine axs e p.2.shape.t0 w 0 else ∑ i, combine axs e (p.2.shape.t1 i) w 0 * combine axs e (p.2.shape.t1 i) u 0 := by
  unfold boundaryMat boundaryVec
  split
  · rw [comb_local]; simp
  · have h := inner_integrand axs e p.2 u w 0
    simp only [mul_zero, Finset.sum_const_zero, sub_zero] at h ⊢
    exact h

theorem other_side {s side : Bool} (h : ¬ s = side) : s = !side := by cases s <;> cases side <;> simp_all

set_option maxHeartbeats 400000 in
/-- The weak residual of the linear function, tested with a field that vanishes at the nodes of the side with the prescribed value. -/
theorem boundary_residual {ds : List (Direction Line)} (S : Setup g2 g3 false size procs axes (ds.map Direction.ax) Ls)
    (hT : ∀ δ ∈ ds, δ.Tabulated) (hs : ∀ δ ∈ ds, IsSpline δ) (hper : ∀ δ ∈ ds, δ.ax.periodic = false) (hX : PointsInside ds)
    (hx : ∀ δ ∈ ds, ExactRule (2 * δ.ax.p.toNat) δ.X δ.W) (axis : Fin ds.length) (side : Bool) (hcl : ClampedAt ds[axis].ax (!side))
    {c : List Int → PtIn ds.length ds.length (Fin (nenOf (ds.map Direction.ax)))} (hc : ∀ e, FirstOrder (c e)) (hgeo : ∀ e, (c e).geometry = none)
    {elt : List Int → Elt ℝ (BPt ds.length (nenOf (ds.map Direction.ax)))} (hE : WithSides ds (boundaryConditions axis side) c elt)
    (w : List Int → Nat → ℝ) (hw0 : ∀ z, z[(axis:Nat)]? = some (sideNode ds[axis].ax (!side)) → w z 0 = 0) :
    ((indices (ds.map fun δ => δ.ax.nel)).map fun e => integral (elt e) fun p =>
      (∑ a : Fin (nenOf (ds.map Direction.ax)), ∑ b : Fin (nenOf (ds.map Direction.ax)), loc (ds.map Direction.ax) w e a * boundaryMat p a b *
          loc (ds.map Direction.ax) (fun z _ => polyField (ds.map Direction.ax) [rampTerm ds.length axis (ramp ds[axis].ax side)] z) e b) -
      ∑ a : Fin (nenOf (ds.map Direction.ax)), loc (ds.map Direction.ax) w e a * boundaryVec p a).sum = 0 := by
  obtain ⟨h1, h3, hw⟩ := setup_facts S
  have hw' : ∀ ax ∈ ds.map Direction.ax, WF ax ∧ ax.periodic = false := by
    intro ax hax
    obtain ⟨δ, hδ, rfl⟩ := List.mem_map.1 hax
    exact ⟨hw δ hδ, hper δ hδ⟩
  obtain ⟨T, hTd⟩ : ∃ T : List (List ℝ[X]), T = [rampTerm ds.length axis (ramp ds[axis].ax side)] := ⟨_, rfl⟩
  rw [← hTd]
  have hdeg : ∀ P ∈ T, List.Forall₂ (fun p d => p.natDegree ≤ d) P ((ds.map Direction.ax).map fun ax => ax.p.toNat) := by
    intro P hP
    rw [hTd, List.mem_singleton] at hP
    subst hP
    have := rampTerm_degree (deg := (ds.map Direction.ax).map fun ax => ax.p.toNat) (fun d hd => by
      simp only [List.map_map, List.mem_map, Function.comp_apply] at hd
      obtain ⟨δ, hδ, rfl⟩ := hd
      have := (hw δ hδ).legal.degree
      omega) axis (ramp_degree ds[axis].ax side)
    simpa using this
  have hb : ∀ e, InBox (ds.map fun δ => δ.ax.nel) e → InBox ((ds.map Direction.ax).map Axis.nel) e := fun e he => by rw [List.map_map]; exact he
  haveI : Nonempty (Tab ℝ ds.length ℕ × PtOut ds.length ds.length (Fin (nenOf (ds.map Direction.ax)))) :=
    ⟨(⟨fun _ => 0, fun _ _ => 0, fun _ _ _ => 0, fun _ _ _ _ => 0, fun _ _ _ _ _ => 0⟩,
     ⟨⟨fun _ => 0, fun _ _ => 0, fun _ _ _ => 0, fun _ _ _ _ => 0, fun _ _ _ _ _ => 0⟩,
      ⟨fun _ => 0, fun _ _ => 0, fun _ _ _ => 0, fun _ _ _ _ => 0, fun _ _ _ _ _ => 0⟩, 0,
      ⟨fun _ => 0, fun _ _ => 0, fun _ _ _ => 0, fun _ _ _ _ => 0, fun _ _ _ _ _ => 0⟩,
      ⟨fun _ => 0, fun _ _ => 0, fun _ _ _ => 0, fun _ _ _ _ => 0, fun _ _ _ _ _ => 0⟩, 0, fun _ => 0, 0⟩)⟩
  have hin := hE.inner
  choose! mem qs hqs hqsp using hin
  have hins : ∀ (a : Fin ds.length) (s : Bool) (e : List Int), InBox ((ds.eraseIdx a).map fun δ => δ.ax.nel) e →
      InBox (ds.map fun δ => δ.ax.nel) (onSide ds[a].ax a s e) ∧ (onSide ds[a].ax a s e)[(a:Nat)]? = some (sideElem ds[a].ax s) := by
    intro a s e he
    have ho := setup_open S ds[a] (by simp)
    have ha := a.isLt
    obtain ⟨-, sn0, sn1⟩ := sideElem_sp (hw ds[a] (by simp)) ho s
    have hel : e.length + 1 = ds.length := by
      rw [PetIGA.Grid.inBox_length he, List.length_map, List.length_eraseIdx]; simp; omega
    have hns : (ds.map fun δ => δ.ax.nel)[(a:Nat)]? = some ds[a].ax.nel := by simp
    exact ⟨inBox_insert hns (by rw [List.eraseIdx_map]; exact he) sn0 sn1, insert_get _ _ _ (by omega)⟩
  have hsd : ∀ (a : Fin ds.length) (s : Bool) (e : List Int), InBox ((ds.eraseIdx a).map fun δ => δ.ax.nel) e → ∃ mem qs,
      tabulateFace (c (onSide ds[a].ax a s e)) (ds.map Direction.B) (ds.map fun d => endPoints d.ax) (onSide ds[a].ax a s e) a s mem = .ok qs ∧
      (elt (onSide ds[a].ax a s e)).points (some ((2 * (a:Nat) + (if s then 1 else 0) : Nat) : Int)) = qs.map (tag true) :=
    fun a s e he => hE.sides _ (hins a s e he).1 a s (hins a s e he).2
  choose! memb qb hqb hqbp using hsd
  have hweak := weak_polynomial S hT hs hper hx c hc hgeo mem qs hqs memb qb hqb T hdeg w
  simp only [boundary_integrand]
  unfold integral
  rw [List.sum_map_add]
  have hlen : ∀ e ∈ indices (ds.map fun δ => δ.ax.nel), (elt e).id.length = ds.length := by
    intro e he
    have he := (mem_indices _ e).1 he
    rw [(hE.id e he).1, PetIGA.Grid.inBox_length he]; simp
  rw [List.map_congr_left fun e he => by rw [hlen e he]]
  -- the boundary form is on one side only
  have hvis : ∀ e ∈ indices (ds.map fun δ => δ.ax.nel), ((List.range (2 * ds.length)).map fun (b : Nat) => if OnSide (elt e) b then
        pointSum ((elt e).points (some (b:Int))) (fun p => if p.1 = true then - combine (ds.map Direction.ax) e p.2.shape.t0 w 0 else
          ∑ i, combine (ds.map Direction.ax) e (p.2.shape.t1 i) w 0 * combine (ds.map Direction.ax) e (p.2.shape.t1 i) (fun z _ => polyField (ds.map Direction.ax) T z) 0) else 0).sum =
      ((List.range (2 * ds.length)).map fun b => if e.getD (b / 2) 0 = (if b % 2 = 1 then (ds.map fun δ => δ.ax.nel).getD (b / 2) 0 - 1 else 0) then
        (if b / 2 = (axis:Nat) ∧ b % 2 = (if side then 1 else 0) then
        pointSum ((elt e).points (some (b:Int))) (fun p => if p.1 = true then - combine (ds.map Direction.ax) e p.2.shape.t0 w 0 else
          ∑ i, combine (ds.map Direction.ax) e (p.2.shape.t1 i) w 0 * combine (ds.map Direction.ax) e (p.2.shape.t1 i) (fun z _ => polyField (ds.map Direction.ax) T z) 0) else 0) else 0).sum := by
    intro e he
    have he := (mem_indices _ e).1 he
    obtain ⟨i1, i2⟩ := hE.id e he
    congr 1
    refine List.map_congr_left fun b hb => ?_
    have hv := boundary_visit (axis := axis) (by have := axis.isLt; omega) side (b / 2) (decide (b % 2 = 1))
    have e1 : (((if decide (b % 2 = 1) = true then 1 else 0 : Nat)) : Int) = ((b % 2 : Nat) : Int) := by
      rcases Nat.mod_two_eq_zero_or_one b with h | h <;> simp [h]
    rw [e1] at hv
    have e2 : (decide (b % 2 = 1) = side) ↔ b % 2 = (if side then 1 else 0) := by
      rcases Nat.mod_two_eq_zero_or_one b with h | h <;> cases side <;> simp [h]
    rw [e2] at hv
    have hon : OnSide (elt e) b ↔ e.getD (b / 2) 0 = (if b % 2 = 1 then (ds.map fun δ => δ.ax.nel).getD (b / 2) 0 - 1 else 0) ∧
        (b / 2 = (axis:Nat) ∧ b % 2 = (if side then 1 else 0)) := by
      unfold OnSide
      rw [hE.visit e he, i1, i2, hv]
    by_cases c1 : e.getD (b / 2) 0 = (if b % 2 = 1 then (ds.map fun δ => δ.ax.nel).getD (b / 2) 0 - 1 else 0)
    · by_cases c2 : b / 2 = (axis:Nat) ∧ b % 2 = (if side then 1 else 0)
      · rw [if_pos (hon.2 ⟨c1, c2⟩), if_pos c1, if_pos c2]
      · rw [if_neg fun h => c2 (hon.1 h).2, if_pos c1, if_neg c2]
    · rw [if_neg fun h => c1 (hon.1 h).1, if_neg c1]
  rw [List.map_congr_left hvis]
  rw [sum_sides ds (fun δ hδ => by have := sideElem_sp (hw δ hδ) (setup_open S δ hδ) false; simp only [sideElem] at this; omega) _
    (fun e b => e.getD (b / 2) 0 = (if b % 2 = 1 then (ds.map fun δ => δ.ax.nel).getD (b / 2) 0 - 1 else 0)) (fun e he a s => by
    have hal := a.isLt
    have hel : e.length = ds.length := by rw [PetIGA.Grid.inBox_length he]; simp
    have hd : (2 * (a:Nat) + if s then 1 else 0) / 2 = a := by split <;> omega
    have hm : (2 * (a:Nat) + if s then 1 else 0) % 2 = if s then 1 else 0 := by split <;> omega
    rw [hd, hm]
    have g1 : e[(a:Nat)]? = some (e.getD a 0) := by simp [hel]
    rw [g1]
    have g2 : (ds.map fun δ => δ.ax.nel).getD a 0 = ds[a].ax.nel := by simp
    rw [g2]
    unfold sideElem
    cases s <;> simp)]
  have inside : ∀ e ∈ indices (ds.map fun δ => δ.ax.nel), pointSum ((elt e).points none) (fun p =>
      if p.1 = true then - combine (ds.map Direction.ax) e p.2.shape.t0 w 0 else
        ∑ i, combine (ds.map Direction.ax) e (p.2.shape.t1 i) w 0 * combine (ds.map Direction.ax) e (p.2.shape.t1 i) (fun z _ => polyField (ds.map Direction.ax) T z) 0) =
      ((qs e).map fun q =>
        ((∑ i, combine (ds.map Direction.ax) e (q.data.shape.t1 i) w 0 *
            combine (ds.map Direction.ax) e (q.data.shape.t1 i) (fun z _ => polyField (ds.map Direction.ax) T z) 0) +
          combine (ds.map Direction.ax) e q.data.shape.t0 w 0 * lap (d := ds.length) T q.data.u) * (q.detJac * q.weight)).sum := by
    intro e he
    have he := (mem_indices _ e).1 he
    rw [hqsp e he, pointSum_tag]
    congr 1
    refine List.map_congr_left fun q hq => ?_
    congr 1
    simp only [Bool.false_eq_true, if_false]
    rw [hTd, ramp_lap _ _ _ (inner_facts S hT hs (hc e) (hgeo e) he (hqs e he) q hq).1, mul_zero, add_zero]
  rw [List.map_congr_left inside, hweak, ← Finset.sum_add_distrib]
  refine Finset.sum_eq_zero fun a _ => ?_
  rw [← Finset.sum_add_distrib]
  refine Finset.sum_eq_zero fun s _ => ?_
  rw [← List.sum_map_add]
  refine List.sum_eq_zero fun y hy => ?_
  obtain ⟨e, he, rfl⟩ := List.mem_map.1 hy
  have he := (mem_indices _ e).1 he
  have hd : (2 * (a:Nat) + if s then 1 else 0) / 2 = a := by split <;> omega
  have hm : (2 * (a:Nat) + if s then 1 else 0) % 2 = if s then 1 else 0 := by split <;> omega
  have hms : ((if s then 1 else 0) = (if side then 1 else 0)) ↔ s = side := by cases s <;> cases side <;> simp
  rw [hd, hm, hqbp a s e he, pointSum_tag]
  have normal := face_normal h1 h3 hT hs hw a s (setup_open S ds[a] (by simp)) _ (hgeo _) (hins a s e he).1 (hins a s e he).2 (hqb a s e he)
  have slope : ∀ q ∈ qb a s e, ∑ i, combine (ds.map Direction.ax) (onSide ds[a].ax a s e) (q.data.shape.t1 i) (fun z _ => polyField (ds.map Direction.ax) T z) 0 *
      q.data.arrays.normal i = if a = axis then (if s = side then 1 else -1) else 0 := by
    intro q hq
    obtain ⟨f1, f2⟩ := face_facts S hT hs (hc _) (hgeo _) (hins a s e he).1 a s (hins a s e he).2 (hqb a s e he) q hq
    have hv := (reproduces_of hw' (hb _ (hins a s e he).1) f1 f2 T hdeg).deriv
    rw [Finset.sum_eq_single a]
    · rw [hv, hTd, normal q hq]
      simp only [List.map_cons, List.map_nil, List.sum_cons, List.sum_nil, add_zero]
      rw [ramp_slope _ _ _ _ f1]
      unfold flatNormal
      by_cases ha : a = axis
      · cases s <;> cases side <;> simp [ha]
      · simp [ha]
    · intro i _ hi
      rw [normal q hq]
      unfold flatNormal
      rw [if_neg (fun h => hi (Fin.ext h)), mul_zero]
    · intro h; exact absurd (Finset.mem_univ _) h
  by_cases ha : a = axis
  · subst ha
    by_cases hss : s = side
    · rw [if_pos ⟨rfl, hms.2 hss⟩, ← List.sum_map_add]
      refine List.sum_eq_zero fun y hy => ?_
      obtain ⟨q, hq, rfl⟩ := List.mem_map.1 hy
      rw [slope q hq, if_pos rfl, if_pos hss]
      simp
    · rw [if_neg fun h => hss (hms.1 h.2), zero_add]
      have hs' : s = !side := other_side hss
      subst hs'
      refine List.sum_eq_zero fun y hy => ?_
      obtain ⟨q, hq, rfl⟩ := List.mem_map.1 hy
      have tr := (C119_trace S hT hs hX (c (onSide ds[a].ax a (!side) e)) (fun W h => by rw [(hc _).spline] at h; cases h) (hins a (!side) e he).1 a (!side) hcl
        (hper ds[a] (by simp)) (hins a (!side) e he).2 (hqb a (!side) e he) q hq w 0).1 (fun _ _ => 0) (fun z hz => hw0 z hz.2)
      have z0 : combine (ds.map Direction.ax) (onSide ds[a].ax a (!side) e) q.data.shape.t0 (fun _ _ => 0) 0 = 0 := by unfold combine; simp
      rw [tr, z0]
      ring
  · rw [if_neg fun h => ha (Fin.ext h.1), zero_add]
    refine List.sum_eq_zero fun y hy => ?_
    obtain ⟨q, hq, rfl⟩ := List.mem_map.1 hy
    rw [slope q hq, if_neg ha]
    ring

/-! ### Uniqueness -/

/-- A field with zero gradient at all the points is constant. -/
theorem flat_constant {ds : List (Direction Line)} (S : Setup g2 g3 false size procs axes (ds.map Direction.ax) Ls)
    (hT : ∀ δ ∈ ds, δ.Tabulated) (hs : ∀ δ ∈ ds, IsSpline δ) (hEn : ∀ δ ∈ ds, Enough δ) {ops : List (Form.Op ℝ)}
    {c : List Int → PtIn ds.length ds.length (Fin (nenOf (ds.map Direction.ax)))} (hc : ∀ e, FirstOrder (c e)) (hgeo : ∀ e, (c e).geometry = none)
    {elt : List Int → Elt ℝ (BPt ds.length (nenOf (ds.map Direction.ax)))} (hE : WithSides ds ops c elt) (u : List Int → Nat → ℝ)
    (hz : ((indices (ds.map fun δ => δ.ax.nel)).map fun e => pointSum ((elt e).points none) fun p =>
      ∑ i, combine (ds.map Direction.ax) e (p.2.shape.t1 i) u 0 ^ 2).sum = 0) :
    ∀ z z', InBox ((ds.map Direction.ax).map Axis.nnp) z → InBox ((ds.map Direction.ax).map Axis.nnp) z' → u z 0 = u z' 0 := by
  obtain ⟨h1, h3, hw⟩ := setup_facts S
  have hwf := Prb.setup_wf S
  have hnn : ∀ e ∈ indices (ds.map fun δ => δ.ax.nel), ∀ q ∈ (elt e).points none,
      0 ≤ (∑ i, combine (ds.map Direction.ax) e (q.data.2.shape.t1 i) u 0 ^ 2) ∧ 0 < q.detJac * q.weight := by
    intro e he q hq
    have he := (mem_indices _ e).1 he
    obtain ⟨mem, qs, q1, q2⟩ := hE.inner e he
    rw [q2] at hq
    obtain ⟨q', hq', rfl⟩ := List.mem_map.1 hq
    refine ⟨Finset.sum_nonneg fun i _ => sq_nonneg _, ?_⟩
    obtain ⟨pts, hp, hpt⟩ := (tabulated_points rfl h1 h3 hT hs hw (c e) he mem q1).2 q' hq'
    obtain ⟨f1, f2, -, -⟩ := point_facts (hc e) (hgeo e) hpt
    show 0 < q'.detJac * q'.weight
    rw [f1, f2]
    exact mul_pos (lines_J hw he (mem_tensorPoints hp)) (lines_w hT (mem_tensorPoints hp))
  have hps : ∀ e ∈ indices (ds.map fun δ => δ.ax.nel), 0 ≤ pointSum ((elt e).points none) fun p => ∑ i, combine (ds.map Direction.ax) e (p.2.shape.t1 i) u 0 ^ 2 := by
    intro e he
    unfold pointSum
    refine List.sum_nonneg fun y hy => ?_
    obtain ⟨q, hq, rfl⟩ := List.mem_map.1 hy
    exact mul_nonneg (hnn e he q hq).1 (hnn e he q hq).2.le
  intro z z' hzb hzb'
  obtain ⟨e, t, he, ht, rfl⟩ := node_covered hwf S.cond hzb
  obtain ⟨e', t', he', ht', rfl⟩ := node_covered hwf S.cond hzb'
  refine connected (ds.map Direction.ax) hwf (fun z => u z 0) (fun e he => ?_) e e' he he' t t' ht ht'
  rw [List.map_map] at he
  have hei : e ∈ indices (ds.map fun δ => δ.ax.nel) := (mem_indices _ _).2 he
  obtain ⟨mem, qs, q1, q2⟩ := hE.inner e he
  have p0 := sum_zero_all hps hz e hei
  unfold pointSum at p0
  have p1 := sum_zero_all (fun q hq => mul_nonneg (hnn e hei q hq).1 (hnn e hei q hq).2.le) p0
  have hq : ∀ q ∈ qs, tag false q ∈ (elt e).points none := fun q hq => by rw [q2]; exact List.mem_map.2 ⟨q, hq, rfl⟩
  refine element_const h1 h3 hT hs hw hEn (c e) (hc e) he q1 (fun q hq' h0 => ?_) u 0 fun q hq' i => ?_
  · have := (hnn e hei _ (hq q hq')).2
    have h0' : (tag false q).detJac = 0 := h0
    rw [h0', zero_mul] at this
    exact lt_irrefl _ this
  · have := p1 _ (hq q hq')
    rcases mul_eq_zero.1 this with h | h
    · have := (Finset.sum_eq_zero_iff_of_nonneg fun i _ => sq_nonneg _).1 h i (Finset.mem_univ _)
      exact pow_eq_zero_iff (two_ne_zero) |>.1 this
    · exact absurd h (hnn e hei _ (hq q hq')).2.ne'

/-- Sums over nodes of sums over elements. -/
theorem sum_nodes {axs : List (Axis ℝ)} (S : Setup g2 g3 false size procs axes axs Ls) (v : List Int → ℝ) (g : List Int → List Int → ℝ) :
    ((indices (axs.map Axis.nnp)).map fun z => v z * ((indices (axs.map Axis.nel)).map fun e => ((indices (nens axs)).map fun s =>
      if nodeOf false axs e s = z then g e s else 0).sum).sum).sum =
      ((indices (axs.map Axis.nel)).map fun e => ((indices (nens axs)).map fun s => v (nodeOf false axs e s) * g e s).sum).sum := by
  simp only [← List.sum_map_mul_left]
  rw [sum_sum_swap]
  congr 1
  refine List.map_congr_left fun e he => ?_
  rw [sum_sum_swap]
  congr 1
  refine List.map_congr_left fun s hs => ?_
  rw [sum_nodup (a := nodeOf false axs e s) (nodup_indices _) ((mem_indices _ _).2 (nodeOf_inBox S ((mem_indices _ _).1 he) hs))]
  · rw [if_pos rfl]
  · intro b _ hb
    rw [if_neg (Ne.symm hb), mul_zero]

theorem side_node_exists {ds : List (Direction Line)} (hw : ∀ δ ∈ ds, WF δ.ax) (axis : Fin ds.length) (s : Bool) :
    ∃ z, InBox ((ds.map Direction.ax).map Axis.nnp) z ∧ z[(axis:Nat)]? = some (sideNode ds[axis].ax s) := by
  have hn : ∀ δ ∈ ds, 0 < δ.ax.nnp := fun δ h => by
    have h1 := (nnp_bounds (hw δ h)).1
    have h2 := (hw δ h).legal.enough
    omega
  have hl := axis.isLt
  refine ⟨(List.replicate ds.length (0:Int)).set axis (sideNode ds[axis].ax s), ?_, by simp⟩
  unfold InBox
  rw [List.forall₂_iff_get]
  refine ⟨by simp, fun j h1 h2 => ?_⟩
  have hj : j < ds.length := by simpa using h1
  have hp := hn ds[j] (List.getElem_mem _)
  simp only [List.get_eq_getElem, List.getElem_map, List.getElem_set, List.getElem_replicate]
  split_ifs with h
  · have hs : ds[axis] = ds[j] := by simp [h]
    rw [hs]
    unfold sideNode
    split <;> omega
  · omega

/-- The energy of a field. -/
theorem boundary_energy {ds : List (Direction Line)} (S : Setup g2 g3 false size procs axes (ds.map Direction.ax) Ls) {ops : List (Form.Op ℝ)}
    {c : List Int → PtIn ds.length ds.length (Fin (nenOf (ds.map Direction.ax)))}
    {elt : List Int → Elt ℝ (BPt ds.length (nenOf (ds.map Direction.ax)))} (hE : WithSides ds ops c elt) (v : List Int → Nat → ℝ) :
    ((indices ((ds.map Direction.ax).map Axis.nnp)).map fun z => v z 0 *
      ((indices ((ds.map Direction.ax).map Axis.nnp)).map fun y => ((List.range 1).map fun l =>
        sumMat (ds.map Direction.ax) 1 (fun e i j => integral (elt e) fun p => rowMajor (boundaryMat p) ((i:Int) * ((unknowns (ds.map Direction.ax) 1 : Nat) : Int) + (j:Int))) z 0 y l *
          v y l).sum).sum).sum =
      ((indices (ds.map fun δ => δ.ax.nel)).map fun e => pointSum ((elt e).points none) fun p =>
        ∑ i, combine (ds.map Direction.ax) e (p.2.shape.t1 i) v 0 ^ 2).sum := by
  have h : ∀ z, _ := fun z => sumMat_mul S 1 v
    (fun e i j => integral (elt e) fun p => rowMajor (boundaryMat p) ((i:Int) * ((unknowns (ds.map Direction.ax) 1 : Nat) : Int) + (j:Int))) z 0
  simp only [h]
  rw [sum_nodes S (fun z => v z 0), List.map_map]
  congr 1
  refine List.map_congr_left fun e he => ?_
  have he := (mem_indices _ e).1 he
  have hr := element_residual (ds.map Direction.ax) (elt e) boundaryMat (fun _ _ => 0) v v e
  have e0 : ∀ i : Int, entry (fun _ : Fin (nenOf (ds.map Direction.ax)) => (0:ℝ)) i = 0 := fun i => by unfold entry; split <;> rfl
  have i0 : integral (elt e) (fun _ => (0:ℝ)) = 0 := by unfold integral pointSum; simp
  simp only [e0, i0, sub_zero, mul_zero, Finset.sum_const_zero] at hr
  refine hr.trans ?_
  have hpt : ∀ p : BPt ds.length (nenOf (ds.map Direction.ax)), (∑ a : Fin (nenOf (ds.map Direction.ax)), ∑ b : Fin (nenOf (ds.map Direction.ax)),
      loc (ds.map Direction.ax) v e a * boundaryMat p a b * loc (ds.map Direction.ax) v e b) =
      if p.1 then 0 else ∑ i, combine (ds.map Direction.ax) e (p.2.shape.t1 i) v 0 ^ 2 := by
    intro p
    have := boundary_integrand (ds.map Direction.ax) e p v v
    unfold boundaryVec at this
    by_cases hp : p.1 = true
    · simp [boundaryMat, hp]
    · simp only [hp, Bool.false_eq_true, if_false, mul_zero, Finset.sum_const_zero, sub_zero] at this ⊢
      rw [this]
      exact Finset.sum_congr rfl fun i _ => (sq _).symm
  simp only [hpt]
  obtain ⟨i1, i2⟩ := hE.id e he
  have hel : e.length = ds.length := by rw [PetIGA.Grid.inBox_length he]; simp
  unfold integral
  rw [List.sum_eq_zero, zero_add]
  · obtain ⟨mem, qs, q1, q2⟩ := hE.inner e he
    rw [q2, pointSum_tag, pointSum_tag]
    simp
  · intro y hy
    obtain ⟨b, hb, rfl⟩ := List.mem_map.1 hy
    rw [i1, hel, List.mem_range] at hb
    beta_reduce
    split
    · rename_i hon
      unfold OnSide at hon
      rw [i1, i2] at hon
      have hs : e[b / 2]? = some (sideElem (ds[b / 2]'(by omega)).ax (decide (b % 2 = 1))) := by
        have g1 : e[b / 2]? = some (e.getD (b / 2) 0) := by
          have : b / 2 < e.length := by omega
          simp [this]
        have g2 : (ds.map fun δ => δ.ax.nel).getD (b / 2) 0 = (ds[b / 2]'(by omega)).ax.nel := by
          have : b / 2 < ds.length := by omega
          simp [this]
        rw [g1, hon.1, g2]
        unfold sideElem
        simp
      obtain ⟨mem, qs, q1, q2⟩ := hE.sides e he ⟨b / 2, by omega⟩ (decide (b % 2 = 1)) hs
      have hbb : 2 * (b / 2) + (if decide (b % 2 = 1) = true then 1 else 0) = b := by
        rcases Nat.mod_two_eq_zero_or_one b with h | h <;> simp [h] <;> omega
      simp only [hbb] at q2
      rw [q2, pointSum_tag]
      simp
    · rfl

/-- Two fields with the values of the boundary conditions and the same weak form are the same. -/
theorem boundary_unique {ds : List (Direction Line)} (S : Setup g2 g3 false size procs axes (ds.map Direction.ax) Ls)
    (hT : ∀ δ ∈ ds, δ.Tabulated) (hs : ∀ δ ∈ ds, IsSpline δ) (hper : ∀ δ ∈ ds, δ.ax.periodic = false) (hEn : ∀ δ ∈ ds, Enough δ)
    (axis : Fin ds.length) (side : Bool)
    {c : List Int → PtIn ds.length ds.length (Fin (nenOf (ds.map Direction.ax)))} (hc : ∀ e, FirstOrder (c e)) (hgeo : ∀ e, (c e).geometry = none)
    {elt : List Int → Elt ℝ (BPt ds.length (nenOf (ds.map Direction.ax)))} (hE : WithSides ds (boundaryConditions axis side) c elt)
    {f : List Int → Nat → ℝ} {u u' : List Int → Nat → ℝ}
    (h : ∀ u₀ ∈ [u, u'], Satisfies (ds.map Direction.ax) (boundaryConditions axis side) 1 none u₀ ∧
      AtFree (ds.map Direction.ax) (boundaryConditions axis side) 1 none (fun z k =>
        ((indices ((ds.map Direction.ax).map Axis.nnp)).map fun y => ((List.range 1).map fun l =>
          sumMat (ds.map Direction.ax) 1 (fun e i j => integral (elt e) fun p => rowMajor (boundaryMat p) ((i:Int) * ((unknowns (ds.map Direction.ax) 1 : Nat) : Int) + (j:Int))) z k y l *
            u₀ y l).sum).sum) f) :
    ∀ z, InBox ((ds.map Direction.ax).map Axis.nnp) z → u z 0 = u' z 0 := by
  obtain ⟨h1, h3, hw⟩ := setup_facts S
  have hwf := Prb.setup_wf S
  have ho : ∀ ax ∈ ds.map Direction.ax, OpenEnds ax := by
    intro ax hax
    obtain ⟨δ, hδ, rfl⟩ := List.mem_map.1 hax
    exact setup_open S δ hδ
  have hax : (ds.map Direction.ax)[(axis:Nat)]? = some ds[axis].ax := by simp
  have hpre := fun z => boundary_prescribed hwf ho (by have := axis.isLt; omega) hax (hper ds[axis] (by simp)) side z
  obtain ⟨s1, f1⟩ := h u (by simp)
  obtain ⟨s2, f2⟩ := h u' (by simp)
  obtain ⟨v, hv⟩ : ∃ v : List Int → Nat → ℝ, ∀ z k, v z k = u z k - u' z k := ⟨_, fun _ _ => rfl⟩
  have v0 : ∀ z, InBox ((ds.map Direction.ax).map Axis.nnp) z → z[(axis:Nat)]? = some (sideNode ds[axis].ax (!side)) → v z 0 = 0 := by
    intro z hz hn
    have hp := hpre z
    rw [if_pos hn] at hp
    rw [hv, s1 z 0 hz (by omega) 1 hp, s2 z 0 hz (by omega) 1 hp, sub_self]
  have hz := (boundary_energy S hE v).symm.trans (by
    refine List.sum_eq_zero fun y hy => ?_
    obtain ⟨z, hz, rfl⟩ := List.mem_map.1 hy
    have hz := (mem_indices _ z).1 hz
    by_cases hn : z[(axis:Nat)]? = some (sideNode ds[axis].ax (!side))
    · rw [v0 z hz hn, zero_mul]
    · have hp := hpre z
      rw [if_neg hn] at hp
      have g1 := f1 z 0 hz (by omega) hp
      have g2 := f2 z 0 hz (by omega) hp
      beta_reduce at g1 g2
      have g := sub_eq_zero.2 (g1.trans g2.symm)
      rw [← list_sum_sub] at g
      simp only [← list_sum_sub, ← mul_sub, ← hv] at g
      rw [g, mul_zero])
  have hcon := flat_constant S hT hs hEn hc hgeo hE v hz
  obtain ⟨z', hz', hn'⟩ := side_node_exists hw axis (!side)
  intro z hz
  have := (hcon z z' hz hz').trans (v0 z' hz' hn')
  rw [hv] at this
  linarith

/-! ### The solution -/

/-- `x` satisfies every equation of a system of `n` unknowns. -/
def Solves (n : Nat) (A : Int × Int → ℝ) (b x : Int → ℝ) : Prop :=
  ∀ i : Nat, i < n → ∑ j ∈ Finset.range n, A ((i:Int), (j:Int)) * x j = b i

/-- **C125**, demo/BoundaryIntegral.c with Galerkin's method and without a geometry, with any number of processes, 1 to 3 dimensions, any knots
clamped at the side with the prescribed value, any degrees, and rules exact for twice the degrees: `IGAComputeSystem` succeeds, and the assembled
system has exactly one solution; it is the linear function with the value 1 at one side of the direction and slope 1 towards the other one. -/
theorem C125_solution {ds : List (Direction Line)} (S : Setup g2 g3 false size procs axes (ds.map Direction.ax) Ls)
    (hT : ∀ δ ∈ ds, δ.Tabulated) (hs : ∀ δ ∈ ds, IsSpline δ) (hper : ∀ δ ∈ ds, δ.ax.periodic = false) (hEn : ∀ δ ∈ ds, Enough δ) (hX : PointsInside ds)
    (hx : ∀ δ ∈ ds, ExactRule (2 * δ.ax.p.toNat) δ.X δ.W) (axis : Fin ds.length) (side : Bool) (hcl : ClampedAt ds[axis].ax (!side))
    {c : List Int → PtIn ds.length ds.length (Fin (nenOf (ds.map Direction.ax)))} (hc : ∀ e, FirstOrder (c e)) (hgeo : ∀ e, (c e).geometry = none)
    {elt : List Int → Elt ℝ (BPt ds.length (nenOf (ds.map Direction.ax)))} (hE : WithSides ds (boundaryConditions axis side) c elt) (hist) (pw) (w) :
    ∃ A b, computeSystem Ls hist 1 ⟨elt, pw, w⟩ boundarySystem = .ok (A, b) ∧
      ∃ x : Int → ℝ, Solves (total (ds.map Direction.ax) 1) A b x ∧
        (∀ y, Solves (total (ds.map Direction.ax) 1) A b y → ∀ i : Nat, i < total (ds.map Direction.ax) 1 → y i = x i) ∧
        ∀ e, InBox (ds.map fun δ => δ.ax.nel) e → ∀ q ∈ (elt e).points none,
          combine (ds.map Direction.ax) e q.data.2.shape.t0 (fun z i => x (Blk.unknown Ls (ds.map Direction.ax) 1 z i)) 0 =
            if side then 1 + (q.data.2.u.getD axis 0 - (domain ds[axis].ax).1) else 1 + ((domain ds[axis].ax).2 - q.data.2.u.getD axis 0) := by
  obtain ⟨h1, h3, hw⟩ := setup_facts S
  have hwf := Prb.setup_wf S
  have hw' : ∀ ax ∈ ds.map Direction.ax, WF ax ∧ ax.periodic = false := by
    intro ax hax
    obtain ⟨δ, hδ, rfl⟩ := List.mem_map.1 hax
    exact ⟨hw δ hδ, hper δ hδ⟩
  have ho : ∀ ax ∈ ds.map Direction.ax, OpenEnds ax := by
    intro ax hax
    obtain ⟨δ, hδ, rfl⟩ := List.mem_map.1 hax
    exact setup_open S δ hδ
  have hax : (ds.map Direction.ax)[(axis:Nat)]? = some ds[axis].ax := by simp
  have hpre := fun z => boundary_prescribed hwf ho (by have := axis.isLt; omega) hax (hper ds[axis] (by simp)) side z
  have hp1 : (ramp ds[axis].ax side).natDegree ≤ ds[axis].ax.p.toNat := by
    have := (hw ds[axis] (by simp)).legal.degree
    have := ramp_degree ds[axis].ax side
    omega
  have hdeg : ∀ P ∈ [rampTerm ds.length axis (ramp ds[axis].ax side)], List.Forall₂ (fun p d => p.natDegree ≤ d) P ((ds.map Direction.ax).map fun ax => ax.p.toNat) := by
    intro P hP
    rw [List.mem_singleton] at hP
    subst hP
    have := rampTerm_degree (deg := (ds.map Direction.ax).map fun ax => ax.p.toNat) (fun d hd => by
      simp only [List.map_map, List.mem_map, Function.comp_apply] at hd
      obtain ⟨δ, hδ, rfl⟩ := hd
      have := (hw δ hδ).legal.degree
      omega) axis (ramp_degree ds[axis].ax side)
    simpa using this
  have hb : ∀ e, InBox (ds.map fun δ => δ.ax.nel) e → InBox ((ds.map Direction.ax).map Axis.nel) e := fun e he => by rw [List.map_map]; exact he
  let u : List Int → Nat → ℝ := fun z _ => polyField (ds.map Direction.ax) [rampTerm ds.length axis (ramp ds[axis].ax side)] z
  obtain ⟨A, b, a, f, hA, ha, hf, hsol⟩ := C80_system S hE.built boundarySystem _ _ (boundary_fills (unknowns_one (ds.map Direction.ax))) hist pw w
  obtain ⟨x, hx'⟩ := represents_exists S 1 u
  have hxu : ∀ z (i : Nat), InBox ((ds.map Direction.ax).map Axis.nnp) z → i < 1 → x (Blk.unknown Ls (ds.map Direction.ax) 1 z i) = u z i :=
    fun z i hz hi => hx' z i hz hi
  have hsat : Satisfies (ds.map Direction.ax) (boundaryConditions axis side) 1 none u := by
    intro z k hz hk v hv
    have hk0 : k = 0 := by omega
    subst hk0
    rw [hpre z] at hv
    split at hv
    · rename_i hn
      cases hv
      show polyField _ _ z = 1
      unfold polyField
      have hzl : z.length = ds.length := by rw [PetIGA.Grid.inBox_length hz]; simp
      simp only [List.map_cons, List.map_nil, List.sum_cons, List.sum_nil, add_zero]
      rw [termCoef_ramp _ _ _ _ _ (by simp) hzl hax hn,
        polyCoef_side (hw ds[axis] (by simp)) (setup_open S ds[axis] (by simp)) (hper ds[axis] (by simp)) hcl _ hp1, ramp_end]
    · cases hv
  have hu := (hsol u).2 ⟨hsat, by
    intro z k hz hk hp
    have hk0 : k = 0 := by omega
    subst hk0
    have hn : ¬ z[(axis:Nat)]? = some (sideNode ds[axis].ax (!side)) := fun hn => by
      rw [hpre z, if_pos hn] at hp
      cases hp
    beta_reduce
    rw [no_loads hwf hE.built (boundary_noLoads _ _) z 0 (by omega), add_zero, sumMat_mul S]
    unfold weak sumVec
    have hres := boundary_residual S hT hs hper hX hx axis side hcl hc hgeo hE (fun y _ => if y = z then 1 else 0)
      fun y hy => if_neg fun (h : y = z) => hn (h ▸ hy)
    rw [← sub_eq_zero, ← list_sum_sub]
    rw [List.map_map]
    refine Eq.trans ?_ hres
    congr 1
    refine List.map_congr_left fun e he => ?_
    rw [← element_residual, ← list_sum_sub]
    congr 1
    refine List.map_congr_left fun t ht => ?_
    by_cases hn : nodeOf false (ds.map Direction.ax) e t = z
    · rw [if_pos hn, if_pos hn, if_pos hn, one_mul]
    · rw [if_neg hn, if_neg hn, if_neg hn, zero_mul, sub_zero]⟩
  have hfree := (hsol u).1 hu
  refine ⟨A, b, hA, x, fun i hi => ?_, fun y hy i hi => ?_, fun e he q hq => ?_⟩
  · obtain ⟨z, k, hz, hk, e⟩ := unknown_onto S (dof := 1) (i := (i:Int)) (by omega) (by omega)
    have h := hu z k hz hk
    rw [sum_unknown S 1 fun j => A ((i:Int), j) * x j, e]
    rw [show b (Blk.unknown Ls (ds.map Direction.ax) 1 z k) = f z k from hf z k hz hk, ← h]
    congr 1
    refine List.map_congr_left fun y hy => ?_
    congr 1
    refine List.map_congr_left fun l hl => ?_
    have hy := (mem_indices _ _).1 hy
    rw [hxu y l hy (List.mem_range.1 hl)]
    congr 1
    exact ha z k y l hz hy hk (List.mem_range.1 hl)
  · have hfy := (hsol fun z k => y (Blk.unknown Ls (ds.map Direction.ax) 1 z k)).1 fun z k hz hk => by
      obtain ⟨j, hj, hje⟩ : ∃ j : Nat, j < total (ds.map Direction.ax) 1 ∧ Blk.unknown Ls (ds.map Direction.ax) 1 z k = j := by
        have := unknown_bounds S (dof := 1) hz hk
        exact ⟨(Blk.unknown Ls (ds.map Direction.ax) 1 z k).toNat, by omega, by omega⟩
      have h := hy j hj
      rw [sum_unknown S 1 fun i => A ((j:Int), i) * y i, ← hje, show b (Blk.unknown Ls (ds.map Direction.ax) 1 z k) = f z k from hf z k hz hk] at h
      rw [← h]
      congr 1
      refine List.map_congr_left fun y' hy => ?_
      congr 1
      refine List.map_congr_left fun l hl => ?_
      have hy := (mem_indices _ _).1 hy
      congr 1
      exact (ha z k y' l hz hy hk (List.mem_range.1 hl)).symm
    obtain ⟨z, k, hz, hk, e⟩ := unknown_onto S (dof := 1) (i := (i:Int)) (by omega) (by omega)
    have hk0 : k = 0 := by omega
    subst hk0
    rw [e, hxu z 0 hz hk]
    refine boundary_unique S hT hs hper hEn axis side hc hgeo hE
      (f := fun z k => weak (ds.map Direction.ax) 1 elt (fun _ p => entry (boundaryVec p)) z k + Drv.loads (ds.map Direction.ax) 1 elt z k) (u := fun z k => y (Blk.unknown Ls (ds.map Direction.ax) 1 z k)) (fun u₀ hu₀ => ?_) z hz
    rcases List.mem_pair.1 hu₀ with rfl | rfl
    · exact hfy
    · exact hfree
  · obtain ⟨mem, qs, hq1, hq2⟩ := hE.inner e he
    rw [hq2] at hq
    obtain ⟨q', hq', rfl⟩ := List.mem_map.1 hq
    obtain ⟨f1, f2⟩ := inner_facts S hT hs (hc e) (hgeo e) he hq1 q' hq'
    have comb : combine (ds.map Direction.ax) e (tag false q').data.2.shape.t0 (fun z i => x (Blk.unknown Ls (ds.map Direction.ax) 1 z i)) 0 =
        combine (ds.map Direction.ax) e q'.data.shape.t0 u 0 := by
      unfold combine
      congr 1; refine List.map_congr_left fun t ht => ?_
      beta_reduce
      rw [hxu _ 0 (nodeOf_inBox S (hb e he) ht) (by omega)]
      rfl
    rw [comb]
    refine (reproduces_of hw' (hb e he) f1 f2 _ hdeg).value.trans ?_
    simp only [List.map_cons, List.map_nil, List.sum_cons, List.sum_nil, add_zero]
    unfold rampTerm
    rw [evalProd_set _ _ _ _ f1 axis.isLt]
    unfold ramp
    show _ = if side then 1 + (q'.data.u.getD axis 0 - (domain ds[axis].ax).1) else 1 + ((domain ds[axis].ax).2 - q'.data.u.getD axis 0)
    cases side <;> simp

/-- **C125**: on the unit interval this is the function the program compares with, at every point. -/
theorem C125_exact {ds : List (Direction Line)} (S : Setup g2 g3 false size procs axes (ds.map Direction.ax) Ls)
    (hT : ∀ δ ∈ ds, δ.Tabulated) (hs : ∀ δ ∈ ds, IsSpline δ) (hper : ∀ δ ∈ ds, δ.ax.periodic = false) (hEn : ∀ δ ∈ ds, Enough δ) (hX : PointsInside ds)
    (hx : ∀ δ ∈ ds, ExactRule (2 * δ.ax.p.toNat) δ.X δ.W) (axis : Fin ds.length) (side : Bool) (hcl : ClampedAt ds[axis].ax (!side))
    (hunit : domain ds[axis].ax = (0, 1))
    {c : List Int → PtIn ds.length ds.length (Fin (nenOf (ds.map Direction.ax)))} (hc : ∀ e, FirstOrder (c e)) (hgeo : ∀ e, (c e).geometry = none)
    {elt : List Int → Elt ℝ (BPt ds.length (nenOf (ds.map Direction.ax)))} (hE : WithSides ds (boundaryConditions axis side) c elt) (hist) (pw) (w) :
    ∃ A b, computeSystem Ls hist 1 ⟨elt, pw, w⟩ boundarySystem = .ok (A, b) ∧ (∃ x : Int → ℝ, Solves (total (ds.map Direction.ax) 1) A b x) ∧
      ∀ x : Int → ℝ, Solves (total (ds.map Direction.ax) 1) A b x → ∀ e, InBox (ds.map fun δ => δ.ax.nel) e → ∀ q ∈ (elt e).points none,
        combine (ds.map Direction.ax) e q.data.2.shape.t0 (fun z i => x (Blk.unknown Ls (ds.map Direction.ax) 1 z i)) 0 = boundaryExact axis side q.data.2.u := by
  obtain ⟨A, b, hA, x, h1, h2, h3⟩ := C125_solution S hT hs hper hEn hX hx axis side hcl hc hgeo hE hist pw w
  refine ⟨A, b, hA, ⟨x, h1⟩, fun y hy e he q hq => ?_⟩
  have hv := h3 e he q hq
  rw [hunit] at hv
  have hb : InBox ((ds.map Direction.ax).map Axis.nel) e := by rw [List.map_map]; exact he
  have comb : combine (ds.map Direction.ax) e q.data.2.shape.t0 (fun z i => y (Blk.unknown Ls (ds.map Direction.ax) 1 z i)) 0 =
      combine (ds.map Direction.ax) e q.data.2.shape.t0 (fun z i => x (Blk.unknown Ls (ds.map Direction.ax) 1 z i)) 0 := by
    unfold combine
    congr 1; refine List.map_congr_left fun t ht => ?_
    beta_reduce
    have hr := unknown_bounds S (dof := 1) (nodeOf_inBox S hb ht) (c := 0) (by omega)
    have := h2 y hy (Blk.unknown Ls (ds.map Direction.ax) 1 (nodeOf false (ds.map Direction.ax) e t) 0).toNat (by omega)
    rw [Int.toNat_of_nonneg hr.1] at this
    rw [this]
  rw [comb, hv]
  unfold boundaryExact
  cases side
  · simp; ring
  · simp; ring

open PetIGA.Fix in
/-- `C125_solution` applies, on either side of either direction: two processes, 3 × 3 elements of degree 2, Boole's rule. -/
example (g2 : Guess2) (g3 : Guess3) (J : Bsp.Junk ℝ) (axis : Fin (exBoole J).length) (side : Bool)
    (hist : Nat → Hist) (pw : Nat → List Int → PWork ℝ) (w : Nat → List Int → Work ℝ) :
    ∃ (Ls : List (Layout ℝ)) (elt : List Int → Elt ℝ (BPt (exBoole J).length (nenOf ((exBoole J).map Direction.ax)))) (A : Int × Int → ℝ) (b x : Int → ℝ),
      computeSystem Ls hist 1 ⟨elt, pw, w⟩ boundarySystem = .ok (A, b) ∧ Solves (total ((exBoole J).map Direction.ax) 1) A b x := by
  obtain ⟨Ls, S⟩ := exRealSetup g2 g3
  have S' : Setup g2 g3 false 2 [2,1] [exRealAx, exRealAx] ((exBoole J).map Direction.ax) Ls := S
  have hok := exBoole_ok J
  have hax : ∀ δ ∈ exBoole J, δ.ax = exRealAx ∧ δ.X = [-1, -(1/2), 0, 1/2, 1] := by
    intro δ hδ
    simp only [exBoole, List.mem_cons, List.not_mem_nil, or_false, or_self] at hδ
    subst hδ
    exact ⟨rfl, rfl⟩
  obtain ⟨elt, hE⟩ := withSides_exists S' (fun δ h => (hok δ h).1) (fun δ h => (hok δ h).2.1) (boundaryConditions axis side)
  obtain ⟨A, b, hA, x, hx, -⟩ := C125_solution S' (fun δ h => (hok δ h).1) (fun δ h => (hok δ h).2.1) (fun δ h => (hok δ h).2.2.1)
    (fun δ h => by
      obtain ⟨h1, h2⟩ := hax δ h
      unfold Enough
      rw [h1, h2]
      exact ⟨by norm_num, by show (2:Int) < 5; norm_num⟩)
    (fun δ h x hx => by
      rw [(hax δ h).2] at hx
      simp only [List.mem_cons, List.not_mem_nil, or_false] at hx
      rcases hx with rfl | rfl | rfl | rfl | rfl <;> norm_num) (fun δ h => (hok δ h).2.2.2) axis side
    (by rw [(hax _ (by simp)).1]; exact exRealAx_clamped _) (c := fun _ => plainPt _ _) (fun _ => ⟨le_refl _, rfl, rfl, rfl⟩) (fun _ => rfl) hE hist pw w
  exact ⟨Ls, elt, A, b, x, hA, hx⟩

/-- `C125_exact` applies: one element of degree 6 on `[0,1]`, either side. -/
example (g2 : Guess2) (g3 : Guess3) (J : Bsp.Junk ℝ) (side : Bool) (hist : Nat → Hist) (pw : Nat → List Int → PWork ℝ) (w : Nat → List Int → Work ℝ) :
    ∃ (Ls : List (Layout ℝ)) (elt : List Int → Elt ℝ (BPt 1 (nenOf [sixAx]))) (A : Int × Int → ℝ) (b x : Int → ℝ),
      computeSystem Ls hist 1 ⟨elt, pw, w⟩ boundarySystem = .ok (A, b) ∧ Solves (total [sixAx] 1) A b x ∧
      ∀ q ∈ (elt [0]).points none, combine [sixAx] [0] q.data.2.shape.t0 (fun z i => x (Blk.unknown Ls [sixAx] 1 z i)) 0 = boundaryExact 0 side q.data.2.u := by
  obtain ⟨Ls, S⟩ := sixSetup g2 g3
  have S' : Setup g2 g3 false 1 [1] [sixAx] ([sixDir J].map Direction.ax) Ls := S
  have one : ∀ δ ∈ [sixDir J], δ = sixDir J := fun δ h => by simpa using h
  have hT : ∀ δ ∈ [sixDir J], δ.Tabulated := fun δ h => one δ h ▸ sixDir_tabulated J
  have hs : ∀ δ ∈ [sixDir J], IsSpline δ := fun δ h => one δ h ▸ fun k u => ⟨J, rfl⟩
  obtain ⟨elt, hE⟩ := withSides_exists S' hT hs (boundaryConditions 0 side)
  obtain ⟨A, b, hA, ⟨x, hx⟩, hv⟩ := C125_exact S' hT hs (fun δ h => by rw [one δ h]; rfl)
    (fun δ h => by
      rw [one δ h]
      exact ⟨by show sixX.Nodup; unfold sixX; norm_num, by show (6:Int) < (sixX.length : Nat); simp [sixX]⟩)
    (fun δ h x hx => by
      rw [one δ h] at hx
      have hx : x ∈ sixX := hx
      simp only [sixX, List.mem_cons, List.not_mem_nil, or_false] at hx
      rcases hx with rfl | rfl | rfl | rfl | rfl | rfl | rfl | rfl | rfl | rfl | rfl | rfl | rfl <;> norm_num)
    (fun δ h => by rw [one δ h]; exact six_exact) (0 : Fin 1) side
    (by show ClampedAt sixAx (!side); cases side <;> simp [ClampedAt, sixAx, knotAxis] <;> norm_num [sixU])
    (by show domain sixAx = (0, 1); unfold domain; norm_num [sixAx, knotAxis, sixU])
    (c := fun _ => plainPt _ _) (fun _ => ⟨le_refl _, rfl, rfl, rfl⟩) (fun _ => rfl) hE hist pw w
  refine ⟨Ls, elt, A, b, x, hA, hx, hv x hx [0] (.cons ⟨le_refl _, ?_⟩ .nil)⟩
  show 0 < sixAx.nel
  rw [sixAx_nel]
  norm_num

end PetIGA.Demo
