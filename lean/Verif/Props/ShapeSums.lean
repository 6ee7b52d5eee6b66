import Verif.Props.Laplace
import Verif.Props.Reproduce
/-
The functions at the points of an element sum to one, and their first and second derivatives to zero, with or without weights and geometry.
-/
set_option linter.unusedSectionVars false
namespace PetIGA.Itg
open PetIGA.Quad PetIGA.Drv PetIGA.Spec PetIGA.Ax PetIGA.Lay PetIGA.Asm PetIGA.Rule PetIGA.Grid PetIGA.Part PetIGA.Ker
open Polynomial

/-- Derivative orders of `∂_i ∂_j`. -/
def pairOrder {d : Nat} (i j : Fin d) : List Nat := (List.finRange d).map fun k => cnt [i, j] k

theorem basisFuns_t2 (order : Int) {d : Nat} (h1 : 1 ≤ d) (h3 : d ≤ 3) (ns : List Nat) (As : List Line) (hn : ns.length = d)
    (hA : As.length = d) (nen : Nat) (mem : Tab ℝ d Nat) (N) (hN : basisFuns order d ns As nen mem = some N) (ho : 2 ≤ order) :
      ∀ t, InBox (ns.map fun n : Nat => (n:Int)) t → ∀ a : Fin nen, (a:Int) = flat (ns.map fun n : Nat => (n:Int)) t →
        ∀ i j, N.t2 i j a = tens As (pairOrder i j) t := by
  have modlem : ∀ (n x y : Nat), x < n → (x + n * y) % n = x ∧ (x + n * y) / n = y := by
    intro n x y h
    refine ⟨by rw [Nat.add_mul_mod_self_left, Nat.mod_eq_of_lt h], ?_⟩
    rw [Nat.add_mul_div_left _ _ (by omega), Nat.div_eq_of_lt h, Nat.zero_add]
  match d, h1, h3, ns, hn, As, hA, mem, N, hN with
  | 1, _, _, [n1], _, [A], _, mem, N, hN =>
    obtain rfl := Option.some.inj hN
    intro t ht a ha l m
    cases ht with
    | cons hi ht => cases ht; rename_i i
                    obtain ⟨i, rfl⟩ := Int.eq_ofNat_of_zero_le hi.1
                    have e : (a:Nat) = i := by simp only [flat, List.map] at ha; push_cast at ha; omega
                    obtain ⟨-, -, r2, -⟩ := rows1_ok
                    simp only [renumber, tensor1, e]
                    rw [if_neg (by omega), if_neg (by omega)]
                    rw [show pairOrder l m = [cnt [l, m] 0] from rfl]
                    split_ifs <;> simp only [exec_of (r2 l m), tens] <;> simp
  | 2, _, _, [n1, n2], _, [A, B], _, mem, N, hN =>
    obtain rfl := Option.some.inj hN
    intro t ht a ha l m
    cases ht with
    | cons hi ht =>
      cases ht with
      | cons hj ht =>
        cases ht; rename_i i j
        obtain ⟨i, rfl⟩ := Int.eq_ofNat_of_zero_le hi.1
        obtain ⟨j, rfl⟩ := Int.eq_ofNat_of_zero_le hj.1
        have e : (a:Nat) = i + n1 * j := by
          simp only [flat, List.map] at ha; push_cast at ha
          have : (a:Int) = ((i + n1 * j : Nat) : Int) := by push_cast; linarith
          exact_mod_cast this
        obtain ⟨m1, m2⟩ := modlem n1 i j (by have := hi.2; dsimp only at this; omega)
        obtain ⟨-, -, r2, -⟩ := rows2_ok
        simp only [renumber, tensor2, e, m1, m2]
        rw [if_neg (by omega), if_neg (by omega)]
        rw [show pairOrder l m = [cnt [l, m] 0, cnt [l, m] 1] from rfl]
        split_ifs <;> simp only [exec_of (r2 l m), tens] <;> simp
  | 3, _, _, [n1, n2, n3], _, [A, B, C], _, mem, N, hN =>
    obtain rfl := Option.some.inj hN
    intro t ht a ha l m
    cases ht with
    | cons hi ht =>
      cases ht with
      | cons hj ht =>
        cases ht with
        | cons hk ht =>
          cases ht; rename_i i j k
          obtain ⟨i, rfl⟩ := Int.eq_ofNat_of_zero_le hi.1
          obtain ⟨j, rfl⟩ := Int.eq_ofNat_of_zero_le hj.1
          obtain ⟨k, rfl⟩ := Int.eq_ofNat_of_zero_le hk.1
          have e : (a:Nat) = i + n1 * (j + n2 * k) := by
            simp only [flat, List.map] at ha; push_cast at ha
            have : (a:Int) = ((i + n1 * (j + n2 * k) : Nat) : Int) := by push_cast; linarith
            exact_mod_cast this
          obtain ⟨m1, m2⟩ := modlem n1 i (j + n2 * k) (by have := hi.2; dsimp only at this; omega)
          obtain ⟨m3, m4⟩ := modlem n2 j k (by have := hj.2; dsimp only at this; omega)
          obtain ⟨-, -, r2, -⟩ := rows3_ok
          simp only [renumber, tensor3, e, m1, m2, m3, m4]
          rw [if_neg (by omega), if_neg (by omega)]
          rw [show pairOrder l m = [cnt [l, m] 0, cnt [l, m] 1, cnt [l, m] 2] from rfl]
          split_ifs <;> simp only [exec_of (r2 l m), tens] <;> simp [mul_assoc]

/-- The derivatives of orders `os` of all functions of the element sum to one if there is no derivative, else to zero. -/
theorem tensor_total : ∀ (axs : List (Axis ℝ)) (e : List Int) (os : List Nat) (xs : List ℝ), (∀ ax ∈ axs, WF ax) →
    InBox (axs.map fun ax => ax.nel) e → os.length = axs.length → xs.length = axs.length →
    ((indices (nens axs)).map fun t => evalProd (bpolys axs e os t) xs).sum = if ∀ o ∈ os, o = 0 then 1 else 0
  | [], _, [], _, _, he, _, hx => by
    cases he
    simp [nens, indices, bpolys, evalProd]
  | ax :: axs, _, o :: os, x :: xs, hw, he, ho, hx => by
    cases he with
    | cons he0 he =>
    rename_i e0 es
    have ih := tensor_total axs es os xs (fun a h => hw a (by simp [h])) he (by simpa using ho) (by simpa using hx)
    have hp := (hw ax (by simp)).legal.degree
    rw [show nens (ax :: axs) = (ax.p + 1) :: nens axs from rfl, sum_indices]
    simp only [bpolys, evalProd, List.zipWith_cons_cons, List.prod_cons, List.sum_map_mul_left]
    rw [List.sum_map_mul_right]
    rw [show ((indices (nens axs)).map fun t => (List.zipWith (fun (p : ℝ[X]) x => p.eval x) (bpolys axs es os t) xs).prod).sum = _ from ih,
      show (ax.p + 1).toNat = ax.p.toNat + 1 by omega, ← finset_list]
    have hsum := congrArg (fun P => (derivative^[o] P).eval x) (bpoly_sum (hw ax (by simp)) he0.1 he0.2)
    simp only [iterate_derivative_sum, eval_finset_sum] at hsum
    simp only [Int.toNat_natCast]
    rw [hsum]
    cases o with
    | zero => simp
    | succ o =>
      rw [Function.iterate_succ_apply, derivative_one, iterate_map_zero]
      simp
  | [], _, _ :: _, _, _, _, ho, _ => by simp at ho
  | _ :: _, _, [], _, _, _, ho, _ => by simp at ho
  | _ :: _, _, _ :: _, [], _, _, _, hx => by simp at hx

/-- `N` holds the values, and up to the order of the space the first and second derivatives, of the B-splines of element `e` at the point. -/
def SplineTab {nsd nen : Nat} (ds : List (Direction Line)) {d : Nat} (c : PtIn d nsd (Fin nen)) (e : List Int) (pts : List (Pt Line))
    (N : Tab ℝ d (Fin nen)) : Prop :=
  ∀ t, InBox (nens (ds.map Direction.ax)) t → ∀ a : Fin nen, (a:Int) = flat (nens (ds.map Direction.ax)) t →
    (N.t0 a = evalProd (bpolys (ds.map Direction.ax) e (List.replicate d 0) t) (pts.map Pt.x) ∧
      (1 ≤ c.order → ∀ i, N.t1 i a = evalProd (bpolys (ds.map Direction.ax) e (unitOrder i) t) (pts.map Pt.x))) ∧
    (2 ≤ c.order → ∀ i j, N.t2 i j a = evalProd (bpolys (ds.map Direction.ax) e (pairOrder i j) t) (pts.map Pt.x))

theorem cnt_pair_le {d : Nat} (i j k : Fin d) : cnt [i, j] k ≤ 2 := cnt_le [i, j] k

theorem tabulatePoint_of2 {nsd nen d : Nat} {ds : List (Direction Line)} (hd : ds.length = d) (h1 : 1 ≤ d) (h3 : d ≤ 3)
    (hT : ∀ δ ∈ ds, δ.Tabulated) (hs : ∀ δ ∈ ds, IsSpline δ) (hw : ∀ δ ∈ ds, WF δ.ax) (c : PtIn d nsd (Fin nen)) {e : List Int}
    (he : InBox (ds.map fun δ => δ.ax.nel) e) {pts : List (Pt Line)} (hp : pts ∈ tensorPoints (lines ds e)) (mem) :
    ∃ N, SplineTab ds c e pts N ∧
    tabulatePoint c ((ds.map Direction.B).map fun B => B.nen.toNat) mem
      ⟨(pts.map Pt.J).prod, (pts.map Pt.w).prod, (pts.map Pt.x, pts.map Pt.value)⟩ =
      (Ker.tabulate c N (pts.map Pt.J).prod mem.2).bind fun o =>
        .ok ⟨o.detJac, (pts.map Pt.w).prod, ⟨pts.map Pt.x, pointShape c o, o⟩⟩ := by
  have hp2 := mem_tensorPoints hp
  have hl : pts.length = d := by
    have := hp2.length_eq
    have h2 := he.length_eq
    unfold lines at this
    simp at this h2
    omega
  obtain ⟨N, hN, hN2⟩ := basisFuns_ok c.order h1 h3 ((ds.map Direction.B).map fun B => B.nen.toNat) (pts.map lineAt) (by simp [hd])
    (by simp [hl]) nen mem.1
  have hN3 := basisFuns_t2 c.order h1 h3 ((ds.map Direction.B).map fun B => B.nen.toNat) (pts.map lineAt) (by simp [hd])
    (by simp [hl]) nen mem.1 N hN
  rw [nen_eq hT hw] at hN2 hN3
  refine ⟨N, fun t ht a ha => ⟨?_, fun ho i j => ?_⟩, ?_⟩
  · obtain ⟨n0, n1⟩ := hN2 t ht a ha
    rw [n0, tens_eval ds e _ t pts hs hw he (by simp [hd]) (by intro o ho; rw [List.eq_of_mem_replicate ho]; omega) ht hp2]
    refine ⟨rfl, fun ho i => ?_⟩
    rw [n1 ho i, tens_eval ds e _ t pts hs hw he (by simp [unitOrder, hd]) ?_ ht hp2]
    intro o ho
    obtain ⟨k, -, rfl⟩ := List.mem_map.1 ho
    split_ifs <;> omega
  · rw [hN3 ho t ht a ha i j, tens_eval ds e _ t pts hs hw he (by simp [pairOrder, hd]) ?_ ht hp2]
    intro o ho
    obtain ⟨k, -, rfl⟩ := List.mem_map.1 ho
    have := cnt_pair_le i j k
    omega
  · unfold tabulatePoint
    dsimp only
    rw [lines_value hp2, List.map_map, Blk.sequence_ok _ id]
    · simp only [List.map_id]
      rw [hN]
    · intro b _; rfl

theorem tabulated_points2 {nsd nen d : Nat} {ds : List (Direction Line)} (hd : ds.length = d) (h1 : 1 ≤ d) (h3 : d ≤ 3)
    (hT : ∀ δ ∈ ds, δ.Tabulated) (hs : ∀ δ ∈ ds, IsSpline δ) (hw : ∀ δ ∈ ds, WF δ.ax) (c : PtIn d nsd (Fin nen)) {e : List Int}
    (he : InBox (ds.map fun δ => δ.ax.nel) e) (mem) {qs} (h : tabulateElement c (ds.map Direction.B) e mem = .ok qs) :
    ∀ q ∈ qs, ∃ pts ∈ tensorPoints (lines ds e), ∃ N m o, SplineTab ds c e pts N ∧ Ker.tabulate c N (pts.map Pt.J).prod m = .ok o ∧
      q = ⟨o.detJac, (pts.map Pt.w).prod, ⟨pts.map Pt.x, pointShape c o, o⟩⟩ := by
  unfold tabulateElement at h
  rw [elemPoints_ok (by omega) hT hw he] at h
  simp only [Res.bind] at h
  obtain ⟨a1, a2⟩ := sequence_mem _ h
  intro q hq
  obtain ⟨⟨b, i⟩, hb, e⟩ := a2 q hq
  rw [List.mk_mem_zipIdx_iff_getElem?, List.getElem?_map, Option.map_eq_some_iff] at hb
  obtain ⟨pts, hp, rfl⟩ := hb
  have hp := List.mem_of_getElem? hp
  refine ⟨pts, hp, ?_⟩
  obtain ⟨N, n1, n2⟩ := tabulatePoint_of2 hd h1 h3 hT hs hw c he hp (mem i)
  dsimp only at e
  rw [n2] at e
  cases ho : Ker.tabulate c N (pts.map Pt.J).prod (mem i).2 with
  | ok o =>
    rw [ho] at e
    simp only [Res.bind, Res.ok.injEq] at e
    exact ⟨N, _, o, n1, ho, e.symm⟩
  | err e' => rw [ho] at e; simp [Res.bind] at e
  | ub => rw [ho] at e; simp [Res.bind] at e

/-- The second derivatives sum to zero. -/
theorem basis_sums2 {ds : List (Direction Line)} (hw : ∀ δ ∈ ds, WF δ.ax) {nsd : Nat}
    (c : PtIn ds.length nsd (Fin (nenOf (ds.map Direction.ax)))) (hR : Weights ds c) {e : List Int}
    (he : InBox (ds.map fun δ => δ.ax.nel) e) {pts : List (Pt Line)} (hp : pts ∈ tensorPoints (lines ds e))
    {N : Tab ℝ ds.length (Fin (nenOf (ds.map Direction.ax)))} (hN : SplineTab ds c e pts N) (hord : 2 ≤ c.order) :
    ∀ i j, ∑ a, (basisOf c N).t2 i j a = 0 := by
  obtain ⟨s0, s1⟩ := basis_sums hw c hR he hp fun t ht a ha => (hN t ht a ha).1
  have s1 := s1 (by omega)
  intro i j
  have hlen : (pts.map Pt.x).length = (ds.map Direction.ax).length := by
    rw [List.length_map, List.length_map, ← (mem_tensorPoints hp).length_eq]
    simp [lines, PetIGA.Grid.inBox_length he]
  have hw' : ∀ ax ∈ ds.map Direction.ax, WF ax := by
    intro ax hax
    obtain ⟨δ, hδ, rfl⟩ := List.mem_map.1 hax
    exact hw δ hδ
  have he' : InBox ((ds.map Direction.ax).map fun ax => ax.nel) e := by rw [List.map_map]; exact he
  have hzero : ∑ a, N.t2 i j a = 0 := by
    rw [fin_sum, List.map_congr_left (g := fun t => evalProd (bpolys (ds.map Direction.ax) e (pairOrder i j) t) (pts.map Pt.x)) fun t ht => by
      have hlt := flat_lt_nen (ds.map Direction.ax) ht
      unfold ent
      rw [dif_pos hlt]
      exact (hN t ((mem_indices _ _).1 ht) ⟨_, hlt⟩ (by
        have := (flat_range ((mem_indices _ _).1 ht)).1
        simp only; omega)).2 hord i j]
    rw [tensor_total _ e _ _ hw' he' (by simp [pairOrder]) hlen, if_neg]
    intro h
    have := h (cnt [i, j] i) (List.mem_map.2 ⟨i, List.mem_finRange i, rfl⟩)
    simp [cnt] at this
  cases hr : c.rational with
  | none =>
    have hB : basisOf c N = N := by unfold basisOf; rw [hr]
    rw [hB]
    exact hzero
  | some W =>
    have hR2 : ∀ a, (basisOf c N).t2 i j a = (W a * N.t2 i j a - (basisOf c N).t0 a * (∑ a, W a * N.t2 i j a)
        - (basisOf c N).t1 i a * (∑ a, W a * N.t1 j a) - (basisOf c N).t1 j a * (∑ a, W a * N.t1 i a)) / ∑ a, W a * N.t0 a := by
      intro a
      unfold basisOf
      rw [hr]
      dsimp only
      unfold rationalize
      rw [if_neg (by omega), if_neg (by omega)]
      dsimp only
      split_ifs <;> rfl
    simp only [hR2]
    rw [← Finset.sum_div, Finset.sum_sub_distrib, Finset.sum_sub_distrib, Finset.sum_sub_distrib, ← Finset.sum_mul, ← Finset.sum_mul, ← Finset.sum_mul,
      s0, s1, s1]
    simp

/-- At the points of an element, mapped or not, with weights or not: the functions sum to one, their first and second derivatives (up to the order of
the space) to zero. -/
theorem shape_sums {ds : List (Direction Line)} (h1 : 1 ≤ ds.length) (h3 : ds.length ≤ 3)
    (hT : ∀ δ ∈ ds, δ.Tabulated) (hs : ∀ δ ∈ ds, IsSpline δ) (hw : ∀ δ ∈ ds, WF δ.ax) {nsd : Nat}
    (c : PtIn ds.length nsd (Fin (nenOf (ds.map Direction.ax)))) (hR : Weights ds c) {e : List Int}
    (he : InBox (ds.map fun δ => δ.ax.nel) e) {mem} {qs} (h : tabulateElement c (ds.map Direction.B) e mem = .ok qs) :
    ∀ q ∈ qs, ∑ a, q.data.shape.t0 a = 1 ∧ (1 ≤ c.order → ∀ i, ∑ a, q.data.shape.t1 i a = 0) ∧
      (2 ≤ c.order → ∀ i j, ∑ a, q.data.shape.t2 i j a = 0) := by
  intro q hq
  obtain ⟨pts, hp, N, m, o, hN, ho, rfl⟩ := tabulated_points2 rfl h1 h3 hT hs hw c he mem h q hq
  obtain ⟨s0, s1⟩ := basis_sums hw c hR he hp fun t ht a ha => (hN t ht a ha).1
  have s2 := basis_sums2 hw c hR he hp hN
  obtain ⟨b1, b2⟩ := tabulate_basis ho
  dsimp only
  refine ⟨by rw [b2]; exact s0, ?_⟩
  by_cases hg : c.geometry.isSome ∧ ds.length = nsd
  · obtain ⟨hg, rfl⟩ := hg
    obtain ⟨C, hC⟩ := Option.isSome_iff_exists.1 hg
    obtain ⟨E, m', hE⟩ : ∃ E m', o.shape = shapeFunctions c.order E (basisOf c N) m' := by
      unfold Ker.tabulate at ho
      rw [hC] at ho
      dsimp only at ho
      rw [dif_pos rfl] at ho
      split_ifs at ho
      all_goals split at ho <;> (simp only [Res.ok.injEq] at ho; rw [← ho]; exact ⟨_, _, rfl⟩)
    have hsh : pointShape c o = o.shape := by unfold pointShape; rw [hC]; simp
    rw [hsh, hE]
    constructor
    · intro hord i
      have : ∀ a, (shapeFunctions c.order E (basisOf c N) m').t1 i a = ∑ j, (basisOf c N).t1 j a * E.t1 i j := by
        intro a
        unfold shapeFunctions
        rw [if_neg (by omega)]
        dsimp only
        split_ifs <;> rfl
      simp only [this]
      rw [Finset.sum_comm]
      refine Finset.sum_eq_zero fun j _ => ?_
      rw [← Finset.sum_mul, s1 hord, zero_mul]
    · intro hord j i
      have : ∀ n, (shapeFunctions c.order E (basisOf c N) m').t2 j i n =
          ∑ a, ((∑ b, (basisOf c N).t2 b a n * E.t1 i a * E.t1 j b) + (basisOf c N).t1 a n * E.t2 j i a) := by
        intro n
        unfold shapeFunctions
        rw [if_neg (by omega), if_neg (by omega)]
        dsimp only
        split_ifs <;> rfl
      simp only [this]
      rw [Finset.sum_comm]
      refine Finset.sum_eq_zero fun a _ => ?_
      rw [Finset.sum_add_distrib, Finset.sum_comm, ← Finset.sum_mul, s1 (by omega), zero_mul, add_zero]
      refine Finset.sum_eq_zero fun b _ => ?_
      rw [← Finset.sum_mul, ← Finset.sum_mul, s2 hord, zero_mul, zero_mul]
  · have hsh : pointShape c o = o.basis := by unfold pointShape; rw [if_neg hg]
    rw [hsh, b1]
    exact ⟨s1, s2⟩

end PetIGA.Itg
