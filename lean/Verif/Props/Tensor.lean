import Verif.Spec.Tables
import Verif.Props.Elem
import Mathlib.Analysis.Calculus.IteratedDeriv.Defs
import Mathlib.Analysis.Calculus.Deriv.Mul
/-
C42: tensor product tables.
-/
set_option linter.unusedSectionVars false
namespace PetIGA.Ker
open PetIGA.Spec Finset

/-! ### The assignment blocks -/

/-- The last assignment of a block to an index tuple. -/
def findLast : Rows → List Nat → Option (List Nat)
  | [], _ => none
  | r :: rs, t => match findLast rs t with
    | some v => some v
    | none => if t = r.1 then some r.2 else none

theorem exec_eq {K : Type} (rows : Rows) (val mem : List Nat → K) (t : List Nat) :
    exec rows val mem t = ((findLast rows t).map val).getD (mem t) := by
  induction rows generalizing mem with
  | nil => rfl
  | cons r rs ih =>
    have e : exec (r :: rs) val mem = exec rs val (fun t => if t = r.1 then val r.2 else mem t) := rfl
    have e' : findLast (r :: rs) t = match findLast rs t with
      | some v => some v
      | none => if t = r.1 then some r.2 else none := rfl
    rw [e, ih, e']
    cases h : findLast rs t with
    | some v => rfl
    | none =>
      dsimp only
      by_cases ht : t = r.1
      · rw [if_pos ht, if_pos ht]; rfl
      · rw [if_neg ht, if_neg ht]

theorem exec_of {K : Type} {rows : Rows} {t o : List Nat} (h : findLast rows t = some o) (val mem : List Nat → K) :
    exec rows val mem t = val o := by rw [exec_eq, h]; rfl

/-- How many of the directions `l` are the direction `m`. -/
def cnt {d : Nat} (l : List (Fin d)) (m : Fin d) : Nat := l.count m

theorem rows1_ok : findLast rows1_0 [] = some [0] ∧
    (∀ i : Fin 1, findLast rows1_1 [i+1] = some [cnt [i] 0]) ∧
    (∀ i j : Fin 1, findLast rows1_2 [i+1, j+1] = some [cnt [i, j] 0]) ∧
    (∀ i j k : Fin 1, findLast rows1_3 [i+1, j+1, k+1] = some [cnt [i, j, k] 0]) ∧
    (∀ i j k l : Fin 1, findLast rows1_4 [i+1, j+1, k+1, l+1] = some [cnt [i, j, k, l] 0]) := by decide +kernel

theorem rows2_ok : findLast rows2_0 [] = some [0, 0] ∧
    (∀ i : Fin 2, findLast rows2_1 [i+1] = some [cnt [i] 0, cnt [i] 1]) ∧
    (∀ i j : Fin 2, findLast rows2_2 [i+1, j+1] = some [cnt [i, j] 0, cnt [i, j] 1]) ∧
    (∀ i j k : Fin 2, findLast rows2_3 [i+1, j+1, k+1] = some [cnt [i, j, k] 0, cnt [i, j, k] 1]) ∧
    (∀ i j k l : Fin 2, findLast rows2_4 [i+1, j+1, k+1, l+1] = some [cnt [i, j, k, l] 0, cnt [i, j, k, l] 1]) := by
  decide +kernel

theorem rows3_ok : findLast rows3_0 [] = some [0, 0, 0] ∧
    (∀ i : Fin 3, findLast rows3_1 [i+1] = some [cnt [i] 0, cnt [i] 1, cnt [i] 2]) ∧
    (∀ i j : Fin 3, findLast rows3_2 [i+1, j+1] = some [cnt [i, j] 0, cnt [i, j] 1, cnt [i, j] 2]) ∧
    (∀ i j k : Fin 3, findLast rows3_3 [i+1, j+1, k+1] = some [cnt [i, j, k] 0, cnt [i, j, k] 1, cnt [i, j, k] 2]) ∧
    (∀ i j k l : Fin 3, findLast rows3_4 [i+1, j+1, k+1, l+1] =
      some [cnt [i, j, k, l] 0, cnt [i, j, k, l] 1, cnt [i, j, k, l] 2]) := by
  decide +kernel

/-! ### Derivatives of products of functions of one variable -/

/-- `∏_m f_m^(c m)(x_m)`. -/
noncomputable def prodDer {d : Nat} (f : Fin d → ℝ → ℝ) (c : Fin d → Nat) (x : Fin d → ℝ) : ℝ :=
  ∏ m, iteratedDeriv (c m) (f m) (x m)

theorem pd_prodDer {d : Nat} (f : Fin d → ℝ → ℝ) (l : List (Fin d)) (i : Fin d) :
    pd i (prodDer f (cnt l)) = prodDer f (cnt (i :: l)) := by
  funext x
  unfold pd prodDer
  have e : ∀ t, ∏ m, iteratedDeriv (cnt l m) (f m) (Function.update x i t m)
      = iteratedDeriv (cnt l i) (f i) t * ∏ m ∈ univ.erase i, iteratedDeriv (cnt l m) (f m) (x m) := by
    intro t
    rw [← Finset.mul_prod_erase univ _ (Finset.mem_univ i), Function.update_self]
    congr 1
    refine Finset.prod_congr rfl fun m hm => ?_
    rw [Function.update_of_ne (Finset.ne_of_mem_erase hm)]
  simp only [e]
  rw [deriv_mul_const_field, ← Finset.mul_prod_erase univ _ (Finset.mem_univ i)]
  congr 1
  · rw [show cnt (i :: l) i = cnt l i + 1 from List.count_cons_self, iteratedDeriv_succ]
  · refine Finset.prod_congr rfl fun m hm => ?_
    rw [show cnt (i :: l) m = cnt l m from List.count_cons_of_ne (Finset.ne_of_mem_erase hm).symm]

theorem prodDer_zero {d : Nat} (f : Fin d → ℝ → ℝ) : prodDer f (cnt []) = fun x => ∏ m, f m (x m) := by
  funext x
  unfold prodDer
  exact Finset.prod_congr rfl fun m _ => by rw [show cnt ([] : List (Fin d)) m = 0 from rfl, iteratedDeriv_zero]

theorem pds {d : Nat} (f : Fin d → ℝ → ℝ) (F : (Fin d → ℝ) → ℝ) (h : F = fun x => ∏ m, f m (x m)) :
    F = prodDer f (cnt []) ∧ (∀ i, pd i F = prodDer f (cnt [i])) ∧
    (∀ i j, pd i (pd j F) = prodDer f (cnt [i, j])) ∧
    (∀ i j k, pd i (pd j (pd k F)) = prodDer f (cnt [i, j, k])) ∧
    (∀ i j k l, pd i (pd j (pd k (pd l F))) = prodDer f (cnt [i, j, k, l])) := by
  rw [h, ← prodDer_zero]
  refine ⟨rfl, fun i => ?_, fun i j => ?_, fun i j k => ?_, fun i j k l => ?_⟩ <;> simp only [pd_prodDer]

theorem cnt_le {d : Nat} (l : List (Fin d)) (m : Fin d) : cnt l m ≤ l.length := List.count_le_length

variable {ι κ μ : Type}

/-- The derivatives up to order `r` of the functions of one direction at `x` are in the table `iN(0:4,·)`. -/
def Holds1 (r : Nat) (iN : Nat → ι → ℝ) (f : ι → ℝ → ℝ) (x : ℝ) : Prop :=
  ∀ t, t ≤ r → ∀ a, iN t a = iteratedDeriv t (f a) x

/-- **C42** in one dimension. -/
theorem C42_tensor_1d (order : Int) (r : Nat) (hr : r ≤ 4) (ho : (r : Int) ≤ order) (x : Fin 1 → ℝ)
    (f : ι → ℝ → ℝ) (iN : Nat → ι → ℝ) (hi : Holds1 r iN f (x 0)) (mem : Tab ℝ 1 ι) :
    Holds r (tensor1 order iN mem) (fun a y => f a (y 0)) x := by
  obtain ⟨g0, g1, g2, g3, g4⟩ := rows1_ok
  have P := fun a => pds (fun _ => f a) (fun y : Fin 1 → ℝ => f a (y 0)) (by funext y; rw [Fin.prod_univ_one])
  have ex : ∀ (l : List (Fin 1)) a, l.length ≤ r →
      iN (([cnt l 0] : List Nat).getD 0 0) a = prodDer (fun _ => f a) (cnt l) x := by
    intro l a hl
    unfold prodDer
    rw [Fin.prod_univ_one, ← hi _ ((cnt_le l 0).trans hl)]
    rfl
  refine ⟨fun a => ?_, fun h i a => ?_, fun h i j a => ?_, fun h i j k a => ?_, fun h i j k l a => ?_⟩
  · have e : (tensor1 order iN mem).t0 a = exec rows1_0 (fun r => iN (r.getD 0 0) a) (fun _ => mem.t0 a) [] := by
      unfold tensor1; dsimp only; split_ifs <;> rfl
    rw [e, exec_of g0]
    exact (ex [] a (Nat.zero_le _)).trans (congrFun (P a).1 x).symm
  · have e : (tensor1 order iN mem).t1 i a = exec rows1_1 (fun r => iN (r.getD 0 0) a) (fun _ => mem.t1 i a) [i+1] := by
      unfold tensor1; dsimp only; rw [if_neg (by omega)]; split_ifs <;> rfl
    rw [e, exec_of (g1 i), congrFun ((P a).2.1 i) x, ← ex _ a (by simpa using h)]
  · have e : (tensor1 order iN mem).t2 i j a
        = exec rows1_2 (fun r => iN (r.getD 0 0) a) (fun _ => mem.t2 i j a) [i+1, j+1] := by
      unfold tensor1; dsimp only; rw [if_neg (by omega), if_neg (by omega)]; split_ifs <;> rfl
    rw [e, exec_of (g2 i j), congrFun ((P a).2.2.1 i j) x, ← ex _ a (by simpa using h)]
  · have e : (tensor1 order iN mem).t3 i j k a
        = exec rows1_3 (fun r => iN (r.getD 0 0) a) (fun _ => mem.t3 i j k a) [i+1, j+1, k+1] := by
      unfold tensor1; dsimp only; rw [if_neg (by omega), if_neg (by omega), if_neg (by omega)]; split_ifs <;> rfl
    rw [e, exec_of (g3 i j k), congrFun ((P a).2.2.2.1 i j k) x, ← ex _ a (by simpa using h)]
  · have e : (tensor1 order iN mem).t4 i j k l a
        = exec rows1_4 (fun r => iN (r.getD 0 0) a) (fun _ => mem.t4 i j k l a) [i+1, j+1, k+1, l+1] := by
      unfold tensor1; dsimp only
      rw [if_neg (by omega), if_neg (by omega), if_neg (by omega), if_neg (by omega)]
    rw [e, exec_of (g4 i j k l), congrFun ((P a).2.2.2.2 i j k l) x, ← ex _ a (by simpa using h)]

/-- **C42** in two dimensions: when the one-dimensional tables hold the derivatives up to order `r ≤ 4` of the
functions `f a` at `x 0` and `g b` at `x 1`, the tables returned for an order `≥ r` hold the values and all mixed
partial derivatives up to order `r` of the products `f a (x 0) * g b (x 1)`. -/
theorem C42_tensor_2d (order : Int) (r : Nat) (hr : r ≤ 4) (ho : (r : Int) ≤ order) (x : Fin 2 → ℝ)
    (f : ι → ℝ → ℝ) (g : κ → ℝ → ℝ) (iN : Nat → ι → ℝ) (jN : Nat → κ → ℝ) (hi : Holds1 r iN f (x 0))
    (hj : Holds1 r jN g (x 1)) (mem : Tab ℝ 2 (ι × κ)) :
    Holds r (tensor2 order iN jN mem) (fun a y => f a.1 (y 0) * g a.2 (y 1)) x := by
  obtain ⟨g0, g1, g2, g3, g4⟩ := rows2_ok
  let F : ι × κ → Fin 2 → ℝ → ℝ := fun a m => if m = 0 then f a.1 else g a.2
  have P := fun a : ι × κ => pds (F a) (fun y : Fin 2 → ℝ => f a.1 (y 0) * g a.2 (y 1))
    (by funext y; rw [Fin.prod_univ_two]; rfl)
  have ex : ∀ (l : List (Fin 2)) (a : ι × κ), l.length ≤ r →
      iN (([cnt l 0, cnt l 1] : List Nat).getD 0 0) a.1 * jN (([cnt l 0, cnt l 1] : List Nat).getD 1 0) a.2
        = prodDer (F a) (cnt l) x := by
    intro l a hl
    unfold prodDer
    rw [Fin.prod_univ_two]
    change iN (cnt l 0) a.1 * jN (cnt l 1) a.2 = iteratedDeriv _ (f a.1) _ * iteratedDeriv _ (g a.2) _
    rw [← hi _ ((cnt_le l 0).trans hl), ← hj _ ((cnt_le l 1).trans hl)]
  refine ⟨fun a => ?_, fun h i a => ?_, fun h i j a => ?_, fun h i j k a => ?_, fun h i j k l a => ?_⟩
  · have e : (tensor2 order iN jN mem).t0 a
        = exec rows2_0 (fun r => iN (r.getD 0 0) a.1 * jN (r.getD 1 0) a.2) (fun _ => mem.t0 a) [] := by
      unfold tensor2; dsimp only; split_ifs <;> rfl
    rw [e, exec_of g0]
    exact (ex [] a (Nat.zero_le _)).trans (congrFun (P a).1 x).symm
  · have e : (tensor2 order iN jN mem).t1 i a
        = exec rows2_1 (fun r => iN (r.getD 0 0) a.1 * jN (r.getD 1 0) a.2) (fun _ => mem.t1 i a) [i+1] := by
      unfold tensor2; dsimp only; rw [if_neg (by omega)]; split_ifs <;> rfl
    rw [e, exec_of (g1 i), congrFun ((P a).2.1 i) x, ← ex _ a (by simpa using h)]
  · have e : (tensor2 order iN jN mem).t2 i j a
        = exec rows2_2 (fun r => iN (r.getD 0 0) a.1 * jN (r.getD 1 0) a.2) (fun _ => mem.t2 i j a) [i+1, j+1] := by
      unfold tensor2; dsimp only; rw [if_neg (by omega), if_neg (by omega)]; split_ifs <;> rfl
    rw [e, exec_of (g2 i j), congrFun ((P a).2.2.1 i j) x, ← ex _ a (by simpa using h)]
  · have e : (tensor2 order iN jN mem).t3 i j k a
        = exec rows2_3 (fun r => iN (r.getD 0 0) a.1 * jN (r.getD 1 0) a.2) (fun _ => mem.t3 i j k a)
            [i+1, j+1, k+1] := by
      unfold tensor2; dsimp only; rw [if_neg (by omega), if_neg (by omega), if_neg (by omega)]; split_ifs <;> rfl
    rw [e, exec_of (g3 i j k), congrFun ((P a).2.2.2.1 i j k) x, ← ex _ a (by simpa using h)]
  · have e : (tensor2 order iN jN mem).t4 i j k l a
        = exec rows2_4 (fun r => iN (r.getD 0 0) a.1 * jN (r.getD 1 0) a.2) (fun _ => mem.t4 i j k l a)
            [i+1, j+1, k+1, l+1] := by
      unfold tensor2; dsimp only
      rw [if_neg (by omega), if_neg (by omega), if_neg (by omega), if_neg (by omega)]
    rw [e, exec_of (g4 i j k l), congrFun ((P a).2.2.2.2 i j k l) x, ← ex _ a (by simpa using h)]

/-- **C42** in three dimensions. -/
theorem C42_tensor_3d (order : Int) (r : Nat) (hr : r ≤ 4) (ho : (r : Int) ≤ order) (x : Fin 3 → ℝ)
    (f : ι → ℝ → ℝ) (g : κ → ℝ → ℝ) (h : μ → ℝ → ℝ) (iN : Nat → ι → ℝ) (jN : Nat → κ → ℝ) (kN : Nat → μ → ℝ)
    (hi : Holds1 r iN f (x 0)) (hj : Holds1 r jN g (x 1)) (hk : Holds1 r kN h (x 2)) (mem : Tab ℝ 3 (ι × κ × μ)) :
    Holds r (tensor3 order iN jN kN mem) (fun a y => f a.1 (y 0) * g a.2.1 (y 1) * h a.2.2 (y 2)) x := by
  obtain ⟨g0, g1, g2, g3, g4⟩ := rows3_ok
  let F : ι × κ × μ → Fin 3 → ℝ → ℝ := fun a m => if m = 0 then f a.1 else if m = 1 then g a.2.1 else h a.2.2
  have P := fun a : ι × κ × μ => pds (F a) (fun y : Fin 3 → ℝ => f a.1 (y 0) * g a.2.1 (y 1) * h a.2.2 (y 2))
    (by funext y; rw [Fin.prod_univ_three]; rfl)
  let val : ι × κ × μ → List Nat → ℝ := fun a r =>
    iN (r.getD 0 0) a.1 * jN (r.getD 1 0) a.2.1 * kN (r.getD 2 0) a.2.2
  have ex : ∀ (l : List (Fin 3)) (a : ι × κ × μ), l.length ≤ r →
      val a [cnt l 0, cnt l 1, cnt l 2] = prodDer (F a) (cnt l) x := by
    intro l a hl
    unfold prodDer
    rw [Fin.prod_univ_three]
    change iN (cnt l 0) a.1 * jN (cnt l 1) a.2.1 * kN (cnt l 2) a.2.2
      = iteratedDeriv _ (f a.1) _ * iteratedDeriv _ (g a.2.1) _ * iteratedDeriv _ (h a.2.2) _
    rw [← hi _ ((cnt_le l 0).trans hl), ← hj _ ((cnt_le l 1).trans hl), ← hk _ ((cnt_le l 2).trans hl)]
  refine ⟨fun a => ?_, fun h i a => ?_, fun h i j a => ?_, fun h i j k a => ?_, fun h i j k l a => ?_⟩
  · have e : (tensor3 order iN jN kN mem).t0 a = exec rows3_0 (val a) (fun _ => mem.t0 a) [] := by
      unfold tensor3; dsimp only; split_ifs <;> rfl
    rw [e, exec_of g0]
    exact (ex [] a (Nat.zero_le _)).trans (congrFun (P a).1 x).symm
  · have e : (tensor3 order iN jN kN mem).t1 i a = exec rows3_1 (val a) (fun _ => mem.t1 i a) [i+1] := by
      unfold tensor3; dsimp only; rw [if_neg (by omega)]; split_ifs <;> rfl
    rw [e, exec_of (g1 i), congrFun ((P a).2.1 i) x, ← ex _ a (by simpa using h)]
  · have e : (tensor3 order iN jN kN mem).t2 i j a = exec rows3_2 (val a) (fun _ => mem.t2 i j a) [i+1, j+1] := by
      unfold tensor3; dsimp only; rw [if_neg (by omega), if_neg (by omega)]; split_ifs <;> rfl
    rw [e, exec_of (g2 i j), congrFun ((P a).2.2.1 i j) x, ← ex _ a (by simpa using h)]
  · have e : (tensor3 order iN jN kN mem).t3 i j k a
        = exec rows3_3 (val a) (fun _ => mem.t3 i j k a) [i+1, j+1, k+1] := by
      unfold tensor3; dsimp only; rw [if_neg (by omega), if_neg (by omega), if_neg (by omega)]; split_ifs <;> rfl
    rw [e, exec_of (g3 i j k), congrFun ((P a).2.2.2.1 i j k) x, ← ex _ a (by simpa using h)]
  · have e : (tensor3 order iN jN kN mem).t4 i j k l a
        = exec rows3_4 (val a) (fun _ => mem.t4 i j k l a) [i+1, j+1, k+1, l+1] := by
      unfold tensor3; dsimp only
      rw [if_neg (by omega), if_neg (by omega), if_neg (by omega), if_neg (by omega)]
    rw [e, exec_of (g4 i j k l), congrFun ((P a).2.2.2.2 i j k l) x, ← ex _ a (by simpa using h)]

/-- **C42**, ordering: the position of the function `(ia,ja,ka)` in the tables is the position of its node in the
element closure, and the positions of the functions of an element are exactly `0, …, ina*jna*kna-1`, each once. -/
theorem C42_ordering (d0 d1 d2 : Elem.CDir) (h0 : Elem.Inside d0) (h1 : Elem.Inside d1) (h2 : Elem.Inside d2) :
    (∀ ia ja ka : Nat, ia < d0.nen → ja < d1.nen → ka < d2.nen →
      (Elem.closure d0 d1 d2)[nodePos d0.nen d1.nen ia ja ka]? =
        some (Elem.ghostIndex d0.gstart d1.gstart d2.gstart d0.gwidth d1.gwidth
          (d0.offset + ia) (d1.offset + ja) (d2.offset + ka))) ∧
    (∀ n, n < d0.nen * d1.nen * d2.nen → ∃! t : Nat × Nat × Nat, (t.1 < d0.nen ∧ t.2.1 < d1.nen ∧ t.2.2 < d2.nen) ∧
      nodePos d0.nen d1.nen t.1 t.2.1 t.2.2 = n) ∧
    (∀ ia ja ka : Nat, ia < d0.nen → ja < d1.nen → ka < d2.nen →
      nodePos d0.nen d1.nen ia ja ka < d0.nen * d1.nen * d2.nen) := by
  refine ⟨?_, ?_, ?_⟩
  · intro ia ja ka hi hj hk
    rw [← (Elem.C24_closure d0 d1 d2 h0 h1 h2).2.1 ia ja ka hi hj hk]
    congr 1
    unfold nodePos; ring
  · intro n hn
    have p0 := h0.1
    have p1 := h1.1
    refine ⟨(n % d0.nen, n / d0.nen % d1.nen, n / d0.nen / d1.nen), ⟨⟨Nat.mod_lt _ p0, Nat.mod_lt _ p1, ?_⟩, ?_⟩, ?_⟩
    · dsimp only
      rw [Nat.div_div_eq_div_mul, Nat.div_lt_iff_lt_mul (Nat.mul_pos p0 p1), Nat.mul_comm d2.nen]
      exact hn
    · dsimp only [nodePos]
      rw [Nat.mod_add_div, Nat.mod_add_div]
    · rintro ⟨a, b, c⟩ ⟨⟨ha, hb, hc⟩, he⟩
      dsimp only [nodePos] at ha hb hc he
      subst he
      have q : (a + d0.nen * (b + d1.nen * c)) / d0.nen = b + d1.nen * c := by
        rw [Nat.add_mul_div_left _ _ p0, Nat.div_eq_of_lt ha, Nat.zero_add]
      rw [Nat.add_mul_mod_self_left, Nat.mod_eq_of_lt ha, q, Nat.add_mul_mod_self_left, Nat.mod_eq_of_lt hb,
        Nat.add_mul_div_left _ _ p1, Nat.div_eq_of_lt hb, Nat.zero_add]
  · intro ia ja ka hi hj hk
    unfold nodePos
    have a1 : ja + d1.nen * ka < d1.nen * d2.nen := by
      calc ja + d1.nen * ka < d1.nen + d1.nen * ka := by omega
        _ = d1.nen * (ka + 1) := by ring
        _ ≤ d1.nen * d2.nen := Nat.mul_le_mul_left _ hk
    calc ia + d0.nen * (ja + d1.nen * ka) < d0.nen + d0.nen * (ja + d1.nen * ka) := by omega
      _ = d0.nen * (ja + d1.nen * ka + 1) := by ring
      _ ≤ d0.nen * (d1.nen * d2.nen) := Nat.mul_le_mul_left _ a1
      _ = _ := by ring

/-- Non-vacuity of C42: the functions `1, x` times `1, y`, with tables filled by their derivatives. -/
example (x : Fin 2 → ℝ) (mem : Tab ℝ 2 (Fin 2 × Fin 2)) :
    let f : Fin 2 → ℝ → ℝ := fun a t => if a = 0 then 1 else t
    Holds 4 (tensor2 4 (fun t a => iteratedDeriv t (f a) (x 0)) (fun t a => iteratedDeriv t (f a) (x 1)) mem)
      (fun a y => f a.1 (y 0) * f a.2 (y 1)) x := by
  intro f
  exact C42_tensor_2d 4 4 (by omega) (by omega) x f f _ _ (fun _ _ _ => rfl) (fun _ _ _ => rfl) mem

end PetIGA.Ker
