import Verif.Model.PCApply
import Verif.Spec.Schwarz
import Verif.Props.BlockElem
import Mathlib.Algebra.BigOperators.Fin
import Mathlib.LinearAlgebra.Matrix.ToLinearEquiv
import Mathlib.Tactic.Ring
import Mathlib.Tactic.Linarith
/-! Property theorems about the block preconditioners as operators (C84, C85). -/
set_option linter.unusedSectionVars false
namespace PetIGA.PCA
open PetIGA.Spec PetIGA.Part PetIGA.Lay PetIGA.Ax PetIGA.Grid PetIGA.Asm PetIGA.Blk
open scoped Classical
open Finset (range)

variable {V : Type} [Field V]

/-! ### Arrays -/

theorem flatMap_get {α β : Type} {n : Nat} (f : α → List β) : ∀ (l : List α) (i j : Nat), (∀ a ∈ l, (f a).length = n) → j < n →
    (l.flatMap f)[i * n + j]? = (l[i]?).bind fun a => (f a)[j]?
  | [], i, j, _, _ => by simp
  | a :: l, 0, j, h, hj => by
    have ha := h a (by simp)
    rw [List.flatMap_cons, Nat.zero_mul, Nat.zero_add, List.getElem?_append_left (by omega)]
    rfl
  | a :: l, i+1, j, h, hj => by
    have ha := h a (by simp)
    rw [List.flatMap_cons, List.getElem?_append_right (by rw [ha]; nlinarith), ha,
      show (i + 1) * n + j - n = i * n + j by rw [Nat.add_mul]; omega,
      flatMap_get f l i j (fun b hb => h b (by simp [hb])) hj]
    rfl

/-- The block of a matrix. -/
def sub (A : Int → Int → V) (idx : List Int) : Matrix (Fin idx.length) (Fin idx.length) V := fun a b => A idx[a] idx[b]

theorem colMajor_get (A : Int → Int → V) (idx : List Int) :
    colMajor idx.length (idx.flatMap fun i => idx.map fun j => A i j) = (sub A idx).transpose := by
  ext i j
  unfold colMajor sub
  rw [List.getD_eq_getElem?_getD, flatMap_get (n := idx.length) _ _ _ _ (by simp) i.isLt]
  simp
  rfl

theorem toArray_get {m : Nat} (M : Matrix (Fin m) (Fin m) V) (i j : Fin m) : (toArray m M).getD (i.val * m + j.val) 0 = M j i := by
  unfold toArray
  rw [List.getD_eq_getElem?_getD, flatMap_get (n := m) _ _ _ _ (by simp) j.isLt]
  simp

/-- Summing over the entries added for a block. -/
theorem sum_addBlock {M : Type} [AddCommMonoid M] (idx : List Int) (w : List V) (f : (Int × Int) × V → M) :
    ((addBlock idx w).map f).sum = ∑ a : Fin idx.length, ∑ b : Fin idx.length, f ((idx[a], idx[b]), w.getD (a.val * idx.length + b.val) 0) := by
  have key : ∀ (n : Nat) (g : Nat → M), ((List.range n).map g).sum = ∑ a : Fin n, g a.val := by
    intro n g
    rw [Fin.sum_univ_eq_sum_range (fun i => g i) n, Finset.sum_eq_multiset_sum]
    rfl
  have k2 : ∀ (l : List Nat) (g : Nat → List M), ((l.flatMap g)).sum = (l.map fun i => (g i).sum).sum := by
    intro l g
    induction l with
    | nil => rfl
    | cons a l ih => rw [List.flatMap_cons, List.sum_append, ih, List.map_cons, List.sum_cons]
  unfold addBlock
  rw [List.map_flatMap, k2, key]
  refine Finset.sum_congr rfl fun a _ => ?_
  rw [List.map_map, key]
  refine Finset.sum_congr rfl fun b _ => ?_
  simp

/-! ### The bilinear form of a list of added entries -/

/-- `yᵀ B x` for the matrix with these entries added. -/
def form (log : List ((Int × Int) × V)) (y x : Int → V) : V := (log.map fun e => y e.1.1 * e.2 * x e.1.2).sum

/-- Unit vector. -/
def unit (i : Int) : Int → V := fun j => if j = i then 1 else 0

theorem form_append (l l' : List ((Int × Int) × V)) (y x : Int → V) : form (l ++ l') y x = form l y x + form l' y x := by
  unfold form; rw [List.map_append, List.sum_append]

theorem form_cons (e : (Int × Int) × V) (l : List ((Int × Int) × V)) (y x : Int → V) : form (e :: l) y x = y e.1.1 * e.2 * x e.1.2 + form l y x := rfl

theorem assembled_cons (e : (Int × Int) × V) (l : List ((Int × Int) × V)) (k : Int × Int) :
    assembled (e :: l) k = (if e.1 = k then e.2 else 0) + assembled l k := by
  unfold assembled
  rw [List.filter_cons]
  by_cases h : e.1 = k <;> simp [h]

theorem assembled_form (log : List ((Int × Int) × V)) (i j : Int) : assembled log (i, j) = form log (unit i) (unit j) := by
  induction log with
  | nil => rfl
  | cons e l ih =>
    rw [assembled_cons, form_cons, ih]
    congr 1
    obtain ⟨⟨a, b⟩, v⟩ := e
    unfold unit
    by_cases h : a = i <;> by_cases h' : b = j <;> simp [h, h']

/-- All entries added are for unknowns `0, …, N-1`. -/
def InRange (N : Nat) (log : List ((Int × Int) × V)) : Prop :=
  ∀ e ∈ log, (0 ≤ e.1.1 ∧ e.1.1 < N) ∧ (0 ≤ e.1.2 ∧ e.1.2 < N)

theorem sum_unit {N : Nat} {b : Int} (h0 : 0 ≤ b) (h1 : b < N) (f : Int → V) : ∑ j ∈ range N, (if b = (j:Int) then f j else 0) = f b := by
  obtain ⟨n, rfl⟩ := Int.eq_ofNat_of_zero_le h0
  rw [Finset.sum_eq_single n]
  · simp
  · intro c _ hc
    rw [if_neg (by omega)]
  · intro hn
    exact absurd (Finset.mem_range.2 (by omega)) hn

theorem apply_form {N : Nat} {log : List ((Int × Int) × V)} (h : InRange N log) (x : Int → V) (i : Int) :
    apply N (assembled log) x i = form log (unit i) x := by
  have e : ∀ l : List ((Int × Int) × V), apply N (assembled l) x i = ∑ j ∈ range N, assembled l (i, (j:Int)) * x j := fun l => by
    unfold apply; rw [Finset.sum_eq_multiset_sum]; rfl
  rw [e]
  induction log with
  | nil => simp [assembled, form]
  | cons e l ih =>
    rw [form_cons, ← ih fun a ha => h a (by simp [ha])]
    simp only [assembled_cons, add_mul]
    rw [Finset.sum_add_distrib]
    congr 1
    obtain ⟨⟨a, b⟩, v⟩ := e
    have hb := (h _ (List.mem_cons_self ..)).2
    dsimp only at hb ⊢
    by_cases ha : a = i
    · subst ha
      have := sum_unit hb.1 hb.2 (fun j => v * x j)
      rw [show unit (V := V) a a = 1 by simp [unit], one_mul, ← this]
      refine Finset.sum_congr rfl fun j _ => ?_
      by_cases hj : b = j <;> simp [hj]
    · rw [show unit (V := V) i a = 0 by simp [unit, ha], zero_mul, zero_mul]
      refine Finset.sum_eq_zero fun j _ => ?_
      rw [if_neg (by simp [ha]), zero_mul]

theorem applyTranspose_form {N : Nat} {log : List ((Int × Int) × V)} (h : InRange N log) (x : Int → V) (i : Int) :
    applyTranspose N (assembled log) x i = form log x (unit i) := by
  have hs : ∀ l : List ((Int × Int) × V), ∀ j : Int, assembled l (j, i) = assembled (l.map fun e => ((e.1.2, e.1.1), e.2)) (i, j) := by
    intro l j
    induction l with
    | nil => rfl
    | cons e l ih =>
      rw [List.map_cons, assembled_cons, assembled_cons, ih]
      congr 1
      obtain ⟨⟨a, b⟩, v⟩ := e
      by_cases h : a = j <;> by_cases h' : b = i <;> simp [h, h']
  have : applyTranspose N (assembled log) x i = apply N (assembled (log.map fun e => ((e.1.2, e.1.1), e.2))) x i := by
    unfold applyTranspose apply
    congr 1
    refine List.map_congr_left fun j _ => ?_
    rw [hs]
  rw [this, apply_form]
  · unfold form
    rw [List.map_map]
    congr 1
    refine List.map_congr_left fun e _ => ?_
    simp only [Function.comp]
    ring
  · intro e he
    rw [List.mem_map] at he
    obtain ⟨e', h1, rfl⟩ := he
    exact ⟨(h e' h1).2, (h e' h1).1⟩

theorem quadratic_form {N : Nat} {log : List ((Int × Int) × V)} (h : InRange N log) (y x : Int → V) :
    ∑ i ∈ range N, ∑ j ∈ range N, y i * assembled log ((i:Int), (j:Int)) * x j = form log y x := by
  have e : ∀ i : Nat, ∑ j ∈ range N, y i * assembled log ((i:Int), (j:Int)) * x j = y i * form log (unit (i:Int)) x := by
    intro i
    rw [← apply_form h]
    unfold apply
    rw [Finset.sum_congr rfl fun j _ => mul_assoc (y i) _ _, ← Finset.mul_sum, Finset.sum_eq_multiset_sum]
    rfl
  rw [Finset.sum_congr rfl fun i _ => e i]
  clear e
  induction log with
  | nil => simp [form]
  | cons e l ih =>
    simp only [form_cons, mul_add]
    rw [Finset.sum_add_distrib, ih fun a ha => h a (by simp [ha])]
    congr 1
    have ha := (h _ (List.mem_cons_self ..)).1
    have := sum_unit ha.1 ha.2 (fun i => y i * e.2 * x e.1.2)
    rw [← this]
    refine Finset.sum_congr rfl fun i _ => ?_
    unfold unit
    by_cases hi : e.1.1 = i <;> simp [hi]
    ring

/-! ### One block -/

/-- The entries added for a block are those of the inverse of the block of the matrix. -/
def Inverts (A : Int → Int → V) (idx : List Int) (log : List ((Int × Int) × V)) : Prop :=
  ∀ y x : Int → V, form log y x = ∑ a : Fin idx.length, ∑ b : Fin idx.length, y idx[a] * (sub A idx)⁻¹ a b * x idx[b]

theorem mem_addBlock {idx : List Int} {w : List V} {e : (Int × Int) × V} (h : e ∈ addBlock idx w) : e.1.1 ∈ idx ∧ e.1.2 ∈ idx := by
  unfold addBlock at h
  simp only [List.mem_flatMap, List.mem_map, List.mem_range] at h
  obtain ⟨i, hi, j, hj, rfl⟩ := h
  simp only [List.getD_eq_getElem?_getD, List.getElem?_eq_getElem hi, List.getElem?_eq_getElem hj, Option.getD_some]
  exact ⟨List.getElem_mem hi, List.getElem_mem hj⟩

theorem getBlock_ok (A : Int → Int → V) {lo hi : Int} {idx : List Int} (h : ∀ i ∈ idx, lo ≤ i ∧ i < hi) :
    getBlock A lo hi idx = .ok (idx.flatMap fun i => idx.map fun j => A i j) := by
  unfold getBlock
  rw [if_pos]
  rw [List.all_eq_true]
  exact fun i hi => decide_eq_true (h i hi)

theorem block_lapack (A : Int → Int → V) {lo hi : Int} {idx : List Int} (h : ∀ i ∈ idx, lo ≤ i ∧ i < hi) (hn : idx ≠ [])
    (hd : IsUnit (sub A idx).det) : ∃ w, block lapackInv A lo hi idx = .ok (addBlock idx w) ∧ Inverts A idx (addBlock idx w) := by
  unfold block
  rw [getBlock_ok A h]
  refine ⟨toArray idx.length ((sub A idx).transpose)⁻¹, ?_, ?_⟩
  · show (lapackInv idx.length _).bind _ = _
    unfold lapackInv
    rw [if_neg (by simpa using hn), colMajor_get, Matrix.det_transpose, if_pos hd]
    rfl
  · intro y x
    unfold form
    rw [sum_addBlock]
    refine Finset.sum_congr rfl fun a _ => Finset.sum_congr rfl fun b _ => ?_
    dsimp only
    rw [toArray_get, ← Matrix.transpose_nonsing_inv, Matrix.transpose_apply]

theorem block_small (A : Int → Int → V) {lo hi : Int} {idx : List Int} (h : ∀ i ∈ idx, lo ≤ i ∧ i < hi)
    (hd : IsUnit (sub A idx).det) : ∃ w, block smallInv A lo hi idx = .ok (addBlock idx w) ∧ Inverts A idx (addBlock idx w) := by
  match idx, h, hd with
  | [], h, hd =>
    refine ⟨[], rfl, ?_⟩
    intro y x
    simp [form, addBlock]
  | [i], h, hd =>
    letI : Unique (Fin [i].length) := inferInstanceAs (Unique (Fin 1))
    have hsub : ∀ a b, sub A [i] a b = A i i := by
      intro a b
      rw [Unique.eq_default a, Unique.eq_default b]
      rfl
    have hne : A i i ≠ 0 := by
      have := hd.ne_zero
      rw [Matrix.det_unique, hsub] at this
      exact this
    refine ⟨[1 / A i i], ?_, ?_⟩
    · unfold block
      rw [getBlock_ok A h]
      simp only [Res.bind]
      unfold smallInv
      rw [if_neg (show ¬ 1 < [i].length by simp), if_pos (show [i].length = 1 from rfl)]
      simp only [List.flatMap_cons, List.flatMap_nil, List.map_cons, List.map_nil, List.append_nil]
      rw [if_pos hne]
    · intro y x
      unfold form
      rw [sum_addBlock]
      refine Finset.sum_congr rfl fun a _ => Finset.sum_congr rfl fun b _ => ?_
      have hi : (sub A [i])⁻¹ a b = 1 / A i i := by
        have hM : sub A [i] * Matrix.of (fun _ _ => 1 / A i i) = 1 := by
          ext a b
          rw [Matrix.mul_apply, Subsingleton.elim a b, Matrix.one_apply_eq, Fintype.sum_unique, hsub, Matrix.of_apply]
          exact mul_one_div_cancel hne
        rw [Matrix.inv_eq_right_inv hM, Matrix.of_apply]
      rw [hi]
      rw [Unique.eq_default a, Unique.eq_default b]
      rfl
  | i :: j :: l, h, hd =>
    obtain ⟨w, h1, h2⟩ := block_lapack A h (by simp) hd
    refine ⟨w, ?_, h2⟩
    rw [← h1]
    unfold block
    rw [getBlock_ok A h]
    show (smallInv _ _).bind _ = (lapackInv _ _).bind _
    unfold smallInv
    rw [if_pos (by simp)]

/-- A sum over all unknowns of something zero outside a block. -/
theorem sum_block {N : Nat} {idx : List Int} (hn : idx.Nodup) (hr : ∀ i ∈ idx, 0 ≤ i ∧ i < N) (f : Int → V) (hf : ∀ j, j ∉ idx → f j = 0) :
    ∑ j ∈ range N, f j = ∑ c : Fin idx.length, f idx[c] := by
  have e1 : ∀ j : Nat, j ∈ range N → f j = ∑ c : Fin idx.length, if idx[c] = (j:Int) then f j else 0 := by
    intro j _
    by_cases hj : (j:Int) ∈ idx
    · obtain ⟨c, hc, hcj⟩ := List.getElem_of_mem hj
      rw [Finset.sum_eq_single ⟨c, hc⟩]
      · exact (if_pos hcj).symm
      · intro a _ ha
        rw [if_neg]
        intro h
        have h' : idx[a.val] = idx[c] := h.trans hcj.symm
        exact ha (Fin.ext ((List.Nodup.getElem_inj_iff hn).1 h'))
      · intro h; exact absurd (Finset.mem_univ _) h
    · rw [hf _ hj]
      refine (Finset.sum_eq_zero fun c _ => ?_).symm
      split_ifs <;> rfl
  rw [Finset.sum_congr rfl e1, Finset.sum_comm]
  refine Finset.sum_congr rfl fun c _ => ?_
  have := hr idx[c] (List.getElem_mem _)
  exact sum_unit this.1 this.2 f

/-- With distinct unknowns the correction computed from the inverse solves the local problem. -/
theorem local_solve {N : Nat} {A : Int → Int → V} {idx : List Int} (hd : IsUnit (sub A idx).det) (hn : idx.Nodup)
    (hr : ∀ i ∈ idx, 0 ≤ i ∧ i < N) (g : (Int → V) → (Int → V) → V)
    (hg : ∀ y x, g y x = ∑ a : Fin idx.length, ∑ b : Fin idx.length, y idx[a] * (sub A idx)⁻¹ a b * x idx[b]) (x : Int → V) :
    LocalSolve N A x idx fun i => g (unit i) x := by
  constructor
  · intro i hi
    dsimp only
    rw [hg]
    refine Finset.sum_eq_zero fun a _ => Finset.sum_eq_zero fun b _ => ?_
    have : idx[a] ≠ i := fun h => hi (h ▸ List.getElem_mem _)
    simp only [unit]
    rw [if_neg this, zero_mul, zero_mul]
  · intro i hi
    obtain ⟨n, hlt, rfl⟩ := List.getElem_of_mem hi
    unfold mulAt
    have hz : ∀ c : Fin idx.length, g (unit idx[c]) x = ∑ b : Fin idx.length, (sub A idx)⁻¹ c b * x idx[b] := by
      intro c
      rw [hg, Finset.sum_eq_single c]
      · refine Finset.sum_congr rfl fun b _ => ?_
        simp [unit]
      · intro a _ ha
        refine Finset.sum_eq_zero fun b _ => ?_
        have : idx[a] ≠ idx[c] := by
          intro h
          have := (List.Nodup.getElem_inj_iff hn).1 h
          exact ha (Fin.ext this)
        simp only [unit]
        rw [if_neg this, zero_mul, zero_mul]
      · intro h; exact absurd (Finset.mem_univ _) h
    rw [sum_block hn hr (fun j => A idx[n] j * g (unit j) x)]
    · have hmul : sub A idx * (sub A idx)⁻¹ = 1 := Matrix.mul_nonsing_inv _ hd
      have : ∀ c : Fin idx.length, A idx[n] idx[c] * g (unit idx[c]) x = ∑ b : Fin idx.length, sub A idx ⟨n, hlt⟩ c * (sub A idx)⁻¹ c b * x idx[b] := by
        intro c
        rw [hz, Finset.mul_sum]
        refine Finset.sum_congr rfl fun b _ => ?_
        rw [← mul_assoc]
        rfl
      rw [Finset.sum_congr rfl fun c _ => this c, Finset.sum_comm]
      have h2 : ∀ b : Fin idx.length, ∑ c : Fin idx.length, sub A idx ⟨n, hlt⟩ c * (sub A idx)⁻¹ c b * x idx[b] =
          (if (⟨n, hlt⟩ : Fin idx.length) = b then x idx[b] else 0) := by
        intro b
        rw [← Finset.sum_mul, ← Matrix.mul_apply, hmul, Matrix.one_apply]
        split_ifs <;> simp
      rw [Finset.sum_congr rfl fun b _ => h2 b, Finset.sum_ite_eq]
      simp
    · intro j hj
      have : g (unit j) x = 0 := by
        rw [hg]
        refine Finset.sum_eq_zero fun a _ => Finset.sum_eq_zero fun b _ => ?_
        have : idx[a] ≠ j := fun h => hj (h ▸ List.getElem_mem _)
        simp only [unit]
        rw [if_neg this, zero_mul, zero_mul]
      rw [this, mul_zero]

/-! ### Positive definite matrices -/

section
variable [LinearOrder V] [IsStrictOrderedRing V]

/-- The blocks of a positive definite matrix are positive definite. -/
theorem sub_pos {N : Nat} {A : Int → Int → V} (hA : PosDef N A) {idx : List Int} (hn : idx.Nodup) (hr : ∀ i ∈ idx, 0 ≤ i ∧ i < N)
    (z : Fin idx.length → V) (hz : z ≠ 0) : 0 < ∑ a, ∑ b, z a * sub A idx a b * z b := by
  let x : Int → V := fun j => ∑ c : Fin idx.length, if idx[c] = j then z c else 0
  have hx : ∀ a : Fin idx.length, x idx[a] = z a := by
    intro a
    show ∑ c : Fin idx.length, (if idx[c] = idx[a] then z c else 0) = z a
    rw [Finset.sum_eq_single a]
    · rw [if_pos rfl]
    · intro c _ hc
      rw [if_neg]
      intro h
      exact hc (Fin.ext ((List.Nodup.getElem_inj_iff hn).1 h))
    · intro h; exact absurd (Finset.mem_univ _) h
  have hx0 : ∀ j, j ∉ idx → x j = 0 := by
    intro j hj
    refine Finset.sum_eq_zero fun c _ => ?_
    rw [if_neg]
    intro h
    exact hj (h ▸ List.getElem_mem _)
  obtain ⟨a, ha⟩ : ∃ a, z a ≠ 0 := Function.ne_iff.1 hz
  have hp := hA.2 x ⟨idx[a], (hr _ (List.getElem_mem _)).1, (hr _ (List.getElem_mem _)).2, by rw [hx]; exact ha⟩
  rw [sum_block hn hr (fun i => ∑ j ∈ range N, x i * A i j * x j) fun i hi =>
    Finset.sum_eq_zero fun j _ => by rw [hx0 i hi, zero_mul, zero_mul]] at hp
  refine lt_of_lt_of_eq hp (Finset.sum_congr rfl fun c _ => ?_)
  rw [sum_block hn hr (fun j => x idx[c] * A idx[c] j * x j) fun j hj => by rw [hx0 j hj, mul_zero]]
  refine Finset.sum_congr rfl fun d _ => ?_
  rw [hx, hx]
  rfl

theorem sub_unit {N : Nat} {A : Int → Int → V} (hA : PosDef N A) {idx : List Int} (hn : idx.Nodup) (hr : ∀ i ∈ idx, 0 ≤ i ∧ i < N) :
    IsUnit (sub A idx).det := by
  rw [isUnit_iff_ne_zero]
  intro h
  obtain ⟨v, hv, hM⟩ := Matrix.exists_mulVec_eq_zero_iff.2 h
  have := sub_pos hA hn hr v hv
  have e : ∑ a, ∑ b, v a * sub A idx a b * v b = 0 := by
    refine Finset.sum_eq_zero fun a _ => ?_
    have := congrFun hM a
    simp only [Matrix.mulVec, dotProduct, Pi.zero_apply] at this
    rw [Finset.sum_congr rfl fun b _ => mul_assoc (v a) _ _, ← Finset.mul_sum, this, mul_zero]
  rw [e] at this
  exact lt_irrefl _ this

theorem sub_symm {N : Nat} {A : Int → Int → V} (hA : PosDef N A) {idx : List Int} (hr : ∀ i ∈ idx, 0 ≤ i ∧ i < N) :
    (sub A idx).transpose = sub A idx := by
  ext a b
  show A idx[b] idx[a] = A idx[a] idx[b]
  have h1 := hr idx[a] (List.getElem_mem _)
  have h2 := hr idx[b] (List.getElem_mem _)
  exact hA.1 _ _ h2.1 h2.2 h1.1 h1.2

/-- The inverse is positive definite. -/
theorem inv_pos' {N : Nat} {A : Int → Int → V} (hA : PosDef N A) {idx : List Int} (hn : idx.Nodup) (hr : ∀ i ∈ idx, 0 ≤ i ∧ i < N)
    (w : Fin idx.length → V) (hw : w ≠ 0) : 0 < ∑ a, ∑ b, w a * (sub A idx)⁻¹ a b * w b := by
  have hu := sub_unit hA hn hr
  let v := (sub A idx)⁻¹.mulVec w
  have hv : (sub A idx).mulVec v = w := by
    show (sub A idx).mulVec ((sub A idx)⁻¹.mulVec w) = w
    rw [Matrix.mulVec_mulVec, Matrix.mul_nonsing_inv _ hu, Matrix.one_mulVec]
  have hv0 : v ≠ 0 := by
    intro h
    rw [h, Matrix.mulVec_zero] at hv
    exact hw hv.symm
  have hp := sub_pos hA hn hr v hv0
  have e1 : ∑ a, ∑ b, v a * sub A idx a b * v b = ∑ a, v a * w a := by
    refine Finset.sum_congr rfl fun a _ => ?_
    rw [Finset.sum_congr rfl fun b _ => mul_assoc (v a) _ _, ← Finset.mul_sum]
    congr 1
    exact congrFun hv a
  have e2 : ∑ a, ∑ b, w a * (sub A idx)⁻¹ a b * w b = ∑ a, w a * v a := by
    refine Finset.sum_congr rfl fun a _ => ?_
    rw [Finset.sum_congr rfl fun b _ => mul_assoc (w a) _ _, ← Finset.mul_sum]
    rfl
  rw [e2]
  rw [e1] at hp
  refine lt_of_lt_of_eq hp (Finset.sum_congr rfl fun a _ => mul_comm _ _)

end

/-! ### All blocks -/

theorem form_flatten (logs : List (List ((Int × Int) × V))) (y x : Int → V) : form logs.flatten y x = (logs.map fun l => form l y x).sum := by
  induction logs with
  | nil => rfl
  | cons l ls ih => rw [List.flatten_cons, form_append, ih, List.map_cons, List.sum_cons]

/-- What the entries added for a list of blocks are. -/
structure Blocks (N : Nat) (A : Int → Int → V) (blocks : List (List Int)) (logs : List (List ((Int × Int) × V))) : Prop where
  inv : List.Forall₂ (Inverts A) blocks logs
  unit : ∀ idx ∈ blocks, IsUnit (sub A idx).det
  nodup : ∀ idx ∈ blocks, idx.Nodup
  range : ∀ idx ∈ blocks, ∀ i ∈ idx, 0 ≤ i ∧ i < N
  logs : ∀ log ∈ logs, InRange N log

theorem Blocks.inRange {N : Nat} {A : Int → Int → V} {blocks : List (List Int)} {logs : List (List ((Int × Int) × V))} (B : Blocks N A blocks logs) :
    InRange N logs.flatten := by
  intro e he
  obtain ⟨l, hl, hm⟩ := List.mem_flatten.1 he
  exact B.logs l hl e hm

theorem schwarz {N : Nat} {A : Int → Int → V} {blocks : List (List Int)} {logs : List (List ((Int × Int) × V))} (B : Blocks N A blocks logs) (x : Int → V) :
    AdditiveSchwarz N A blocks x (apply N (assembled logs.flatten) x) := by
  refine ⟨logs.map fun l i => form l (unit i) x, ?_, ?_⟩
  · rw [List.forall₂_map_right_iff]
    have hu := B.unit
    have hn := B.nodup
    have hr := B.range
    have h := B.inv
    clear B
    induction h with
    | nil => exact .nil
    | @cons idx log is ls h1 h2 ih =>
      exact .cons (local_solve (hu idx (by simp)) (hn idx (by simp)) (hr idx (by simp)) (form log) h1 x)
        (ih (fun i hi => hu i (by simp [hi])) (fun i hi => hn i (by simp [hi])) (fun i hi => hr i (by simp [hi])))
  · intro i _ _
    rw [apply_form B.inRange, form_flatten, List.map_map]
    rfl

theorem schwarz_transpose {N : Nat} {A : Int → Int → V} {blocks : List (List Int)} {logs : List (List ((Int × Int) × V))} (B : Blocks N A blocks logs) (x : Int → V) :
    AdditiveSchwarz N (fun i j => A j i) blocks x (applyTranspose N (assembled logs.flatten) x) := by
  have ht : ∀ idx, sub (fun i j => A j i) idx = (sub A idx).transpose := fun idx => rfl
  refine ⟨logs.map fun l i => form l x (unit i), ?_, ?_⟩
  · rw [List.forall₂_map_right_iff]
    have hu := B.unit
    have hn := B.nodup
    have hr := B.range
    have h := B.inv
    clear B
    induction h with
    | nil => exact .nil
    | @cons idx log is ls h1 h2 ih =>
      refine .cons (local_solve (A := fun i j => A j i) (by rw [ht, Matrix.det_transpose]; exact hu idx (by simp)) (hn idx (by simp)) (hr idx (by simp)) (fun y x => form log x y) ?_ x)
        (ih (fun i hi => hu i (by simp [hi])) (fun i hi => hn i (by simp [hi])) (fun i hi => hr i (by simp [hi])))
      intro y x
      rw [h1, Finset.sum_comm]
      refine Finset.sum_congr rfl fun a _ => Finset.sum_congr rfl fun b _ => ?_
      rw [ht, ← Matrix.transpose_nonsing_inv, Matrix.transpose_apply]
      ring
  · intro i _ _
    rw [applyTranspose_form B.inRange, form_flatten, List.map_map]
    rfl

theorem posDef [LinearOrder V] [IsStrictOrderedRing V] {N : Nat} {A : Int → Int → V} {blocks : List (List Int)} {logs : List (List ((Int × Int) × V))}
    (B : Blocks N A blocks logs) (hA : PosDef N A) (hc : ∀ i : Int, 0 ≤ i → i < N → ∃ idx ∈ blocks, i ∈ idx) :
    PosDef N fun i j => assembled logs.flatten (i, j) := by
  constructor
  · intro i j _ _ _ _
    show assembled logs.flatten (i, j) = assembled logs.flatten (j, i)
    rw [assembled_form, assembled_form, form_flatten, form_flatten]
    have hr := B.range
    have h := B.inv
    clear B hc
    induction h with
    | nil => rfl
    | @cons idx log is ls h1 h2 ih =>
      rw [List.map_cons, List.map_cons, List.sum_cons, List.sum_cons, ih fun i hi => hr i (by simp [hi])]
      congr 1
      rw [h1, h1, Finset.sum_comm]
      refine Finset.sum_congr rfl fun a _ => Finset.sum_congr rfl fun b _ => ?_
      have hs := sub_symm hA (hr idx (by simp))
      have : (sub A idx)⁻¹ b a = (sub A idx)⁻¹ a b := by
        have h3 : ((sub A idx)⁻¹).transpose = (sub A idx)⁻¹ := by rw [Matrix.transpose_nonsing_inv, hs]
        exact congrFun (congrFun h3 a) b
      rw [this]
      ring
  · rintro x ⟨i, i0, i1, hi⟩
    rw [quadratic_form B.inRange, form_flatten]
    have hr := B.range
    have hn := B.nodup
    have h := B.inv
    obtain ⟨idx, hm, hmi⟩ := hc i i0 i1
    clear hc
    have hpos : ∀ idx log, Inverts A idx log → idx.Nodup → (∀ i ∈ idx, 0 ≤ i ∧ i < N) → 0 ≤ form log x x := by
      intro idx log h1 h2 h3
      rw [h1]
      by_cases hw : (fun a : Fin idx.length => x idx[a]) = 0
      · refine le_of_eq (Finset.sum_eq_zero fun a _ => Finset.sum_eq_zero fun b _ => ?_).symm
        have : x idx[a] = 0 := congrFun hw a
        rw [this, zero_mul, zero_mul]
      · exact (inv_pos' hA h2 h3 _ hw).le
    have hall : ∀ (is : List (List Int)) ls, List.Forall₂ (Inverts A) is ls → (∀ idx ∈ is, idx.Nodup) → (∀ idx ∈ is, ∀ i ∈ idx, 0 ≤ i ∧ i < N) →
        0 ≤ (ls.map fun l => form l x x).sum := by
      intro is ls hf hn hr
      induction hf with
      | nil => exact le_refl _
      | @cons idx log is ls h1 h2 ih =>
        rw [List.map_cons, List.sum_cons]
        exact add_nonneg (hpos idx log h1 (hn _ (by simp)) (hr _ (by simp))) (ih (fun i hi => hn i (by simp [hi])) fun i hi => hr i (by simp [hi]))
    clear B
    induction h with
    | nil => simp at hm
    | @cons idx' log is ls h1 h2 ih =>
      rw [List.map_cons, List.sum_cons]
      rcases List.mem_cons.1 hm with rfl | hm
      · refine add_pos_of_pos_of_nonneg ?_ (hall _ _ h2 (fun i hi => hn i (by simp [hi])) fun i hi => hr i (by simp [hi]))
        rw [h1]
        refine inv_pos' hA (hn _ (by simp)) (hr _ (by simp)) (fun a => x idx[a]) ?_
        obtain ⟨n, hlt, rfl⟩ := List.getElem_of_mem hmi
        intro h0
        exact hi (congrFun h0 ⟨n, hlt⟩)
      · exact add_pos_of_nonneg_of_pos (hpos _ _ h1 (hn _ (by simp)) (hr _ (by simp)))
          (ih (fun i hi => hr i (by simp [hi])) (fun i hi => hn i (by simp [hi])) hm)

/-! ### Local problems -/

theorem unit_iff {N : Nat} {A : Int → Int → V} {idx : List Int} (hr : ∀ i ∈ idx, 0 ≤ i ∧ i < N) :
    IsUnit (sub A idx).det ↔ idx.Nodup ∧ Regular N A idx := by
  constructor
  · intro hu
    have hn : idx.Nodup := by
      rw [List.nodup_iff_injective_get]
      intro a b hab
      by_contra hne
      have hz : (sub A idx).det = 0 := by
        refine Matrix.det_zero_of_row_eq hne ?_
        ext c
        show A (idx.get a) _ = A (idx.get b) _
        rw [hab]
      rw [hz] at hu
      exact not_isUnit_zero hu
    refine ⟨hn, ?_⟩
    rintro z ⟨h1, h2⟩ i
    by_cases hi : i ∈ idx
    · have hz : (sub A idx).mulVec (fun c => z idx[c]) = 0 := by
        ext a
        have := h2 idx[a] (List.getElem_mem _)
        unfold mulAt at this
        rw [sum_block hn hr (fun j => A idx[a] j * z j) fun j hj => by rw [h1 j hj, mul_zero]] at this
        exact this
      obtain ⟨n, hlt, rfl⟩ := List.getElem_of_mem hi
      by_contra h0
      refine hu.ne_zero (Matrix.exists_mulVec_eq_zero_iff.1 ⟨_, ?_, hz⟩)
      intro h
      exact h0 (congrFun h ⟨n, hlt⟩)
    · exact h1 i hi
  · rintro ⟨hn, hreg⟩
    rw [isUnit_iff_ne_zero]
    intro h
    obtain ⟨v, hv, hM⟩ := Matrix.exists_mulVec_eq_zero_iff.2 h
    let x : Int → V := fun j => ∑ c : Fin idx.length, if idx[c] = j then v c else 0
    have hx : ∀ a : Fin idx.length, x idx[a] = v a := by
      intro a
      show ∑ c : Fin idx.length, (if idx[c] = idx[a] then v c else 0) = v a
      rw [Finset.sum_eq_single a]
      · rw [if_pos rfl]
      · intro c _ hc
        rw [if_neg]
        intro h
        exact hc (Fin.ext ((List.Nodup.getElem_inj_iff hn).1 h))
      · intro h; exact absurd (Finset.mem_univ _) h
    have hx0 : ∀ j, j ∉ idx → x j = 0 := by
      intro j hj
      refine Finset.sum_eq_zero fun c _ => ?_
      rw [if_neg]
      intro h
      exact hj (h ▸ List.getElem_mem _)
    refine hv ?_
    ext a
    rw [← hx]
    refine hreg x ⟨hx0, ?_⟩ _
    intro i hi
    obtain ⟨n, hlt, rfl⟩ := List.getElem_of_mem hi
    unfold mulAt
    rw [sum_block hn hr (fun j => A idx[n] j * x j) fun j hj => by rw [hx0 j hj, mul_zero]]
    have := congrFun hM ⟨n, hlt⟩
    simp only [Matrix.mulVec, dotProduct, Pi.zero_apply] at this
    refine Eq.trans (Finset.sum_congr rfl fun c _ => ?_) this
    rw [hx]
    rfl

theorem block_singular (A : Int → Int → V) {lo hi : Int} {idx : List Int} (h : ∀ i ∈ idx, lo ≤ i ∧ i < hi)
    (hd : ¬ IsUnit (sub A idx).det) : block lapackInv A lo hi idx = .err .lib := by
  unfold block
  rw [getBlock_ok A h]
  show (lapackInv idx.length _).bind _ = _
  unfold lapackInv
  split_ifs with h1 h2
  · rfl
  · rw [colMajor_get, Matrix.det_transpose] at h2
    exact absurd h2 hd
  · rfl

theorem sequence_err {α β : Type} {e : Err} (f : β → Res α) : ∀ (l : List β), (∀ b ∈ l, (∃ a, f b = .ok a) ∨ f b = .err e) → (∃ b ∈ l, f b = .err e) →
    Blk.sequence (l.map f) = .err e
  | [], _, h => by simp at h
  | b :: l, h, hx => by
    rw [List.map_cons, Blk.sequence]
    rcases h b (by simp) with ⟨a, ha⟩ | hb
    · rw [ha]
      obtain ⟨c, hc, he⟩ := hx
      rcases List.mem_cons.1 hc with rfl | hc
      · rw [ha] at he; simp at he
      · show (Blk.sequence (l.map f)).bind _ = _
        rw [sequence_err f l (fun d hd => h d (by simp [hd])) ⟨c, hc, he⟩]
        rfl
    · rw [hb]; rfl

/-- The entries added for all items of all processes. -/
theorem run {ι X : Type} {N : Nat} {A : Int → Int → V} (ranks : List ι) (xs : ι → List X) (blk : ι → X → List Int)
    (f : ι → X → Res (List ((Int × Int) × V)))
    (h : ∀ ρ ∈ ranks, ∀ x ∈ xs ρ, IsUnit (sub A (blk ρ x)).det ∧ (∀ i ∈ blk ρ x, 0 ≤ i ∧ i < N) ∧
      ∃ w, f ρ x = .ok (addBlock (blk ρ x) w) ∧ Inverts A (blk ρ x) (addBlock (blk ρ x) w)) :
    ∃ logs : ι → X → List ((Int × Int) × V),
      (∀ ρ ∈ ranks, ∀ x ∈ xs ρ, f ρ x = .ok (logs ρ x) ∧ ∀ e ∈ logs ρ x, e.1.1 ∈ blk ρ x ∧ e.1.2 ∈ blk ρ x) ∧
      Blocks N A (ranks.flatMap fun ρ => (xs ρ).map (blk ρ)) (ranks.flatMap fun ρ => (xs ρ).map (logs ρ)) ∧
      (ranks.map fun ρ => ((xs ρ).map (logs ρ)).flatten).flatten = (ranks.flatMap fun ρ => (xs ρ).map (logs ρ)).flatten := by
  let logs : ι → X → List ((Int × Int) × V) := fun ρ x => match f ρ x with | .ok l => l | _ => []
  have hl : ∀ ρ ∈ ranks, ∀ x ∈ xs ρ, f ρ x = .ok (logs ρ x) ∧ (∃ w, logs ρ x = addBlock (blk ρ x) w) ∧ Inverts A (blk ρ x) (logs ρ x) := by
    intro ρ hρ x hx
    obtain ⟨-, -, w, h1, h2⟩ := h ρ hρ x hx
    have : logs ρ x = addBlock (blk ρ x) w := by show (match f ρ x with | .ok l => l | _ => []) = _; rw [h1]
    exact ⟨by rw [this, h1], ⟨w, this⟩, this ▸ h2⟩
  have hmem : ∀ ρ ∈ ranks, ∀ x ∈ xs ρ, ∀ e ∈ logs ρ x, e.1.1 ∈ blk ρ x ∧ e.1.2 ∈ blk ρ x := by
    intro ρ hρ x hx e he
    obtain ⟨-, ⟨w, hw⟩, -⟩ := hl ρ hρ x hx
    rw [hw] at he
    exact mem_addBlock he
  have hb : ∀ idx, idx ∈ (ranks.flatMap fun ρ => (xs ρ).map (blk ρ)) → IsUnit (sub A idx).det ∧ (∀ i ∈ idx, 0 ≤ i ∧ i < N) := by
    intro idx hi
    rw [List.mem_flatMap] at hi
    obtain ⟨ρ, hρ, hy⟩ := hi
    obtain ⟨x, hx, rfl⟩ := List.mem_map.1 hy
    exact ⟨(h ρ hρ x hx).1, (h ρ hρ x hx).2.1⟩
  refine ⟨logs, fun ρ hρ x hx => ⟨(hl ρ hρ x hx).1, hmem ρ hρ x hx⟩, ⟨?_, fun i hi => (hb i hi).1, fun i hi => ((unit_iff (hb i hi).2).1 (hb i hi).1).1, fun i hi => (hb i hi).2, ?_⟩, ?_⟩
  · have key : ∀ l : List ι, (∀ ρ ∈ l, ρ ∈ ranks) → List.Forall₂ (Inverts A) (l.flatMap fun ρ => (xs ρ).map (blk ρ)) (l.flatMap fun ρ => (xs ρ).map (logs ρ)) := by
      intro l hs
      induction l with
      | nil => exact .nil
      | cons ρ l ih =>
        rw [List.flatMap_cons, List.flatMap_cons]
        refine List.rel_append ?_ (ih fun a ha => hs a (by simp [ha]))
        rw [List.forall₂_map_left_iff, List.forall₂_map_right_iff, List.forall₂_same]
        intro x hx
        exact (hl ρ (hs ρ (by simp)) x hx).2.2
    exact key ranks fun _ h => h
  · intro log hlog e he
    rw [List.mem_flatMap] at hlog
    obtain ⟨ρ, hρ, hy⟩ := hlog
    obtain ⟨x, hx, rfl⟩ := List.mem_map.1 hy
    obtain ⟨h1, h2⟩ := hmem ρ hρ x hx e he
    exact ⟨(h ρ hρ x hx).2.1 _ h1, (h ρ hρ x hx).2.1 _ h2⟩
  · rw [List.flatMap_def, List.flatten_flatten, List.map_map]
    rfl

end PetIGA.PCA
