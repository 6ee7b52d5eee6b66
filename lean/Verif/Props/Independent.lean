import Verif.Props.Tabulate
import Verif.Props.GlobalForm
/-
The functions of an element are determined by their values at the quadrature points, and constants by their gradients.
-/
set_option linter.unusedSectionVars false
namespace PetIGA.Itg
open PetIGA.Quad PetIGA.Drv PetIGA.Spec PetIGA.Ax PetIGA.Lay PetIGA.Asm PetIGA.Rule PetIGA.Grid PetIGA.Part PetIGA.Ker
open Polynomial

/-- The rule of the direction has more than `p` different points. -/
def Enough {V : Type} (δ : Direction V) : Prop := δ.X.Nodup ∧ δ.ax.p < δ.X.length

theorem sep_sp {ax : Axis ℝ} (hw : WF ax) {e : Int} (h0 : 0 ≤ e) (h1 : e < ax.nel) : Bsp.Sep ax.U (sp ax e) (ax.p.toNat : Int) := by
  obtain ⟨a, b, c⟩ := isElement_sp hw h0 h1
  have hp := hw.legal.degree
  exact Bsp.sep_of_sorted hw.legal.sorted (by omega) (by omega) c

theorem bpoly_sum {ax : Axis ℝ} (hw : WF ax) {e : Int} (h0 : 0 ≤ e) (h1 : e < ax.nel) :
    ∑ r ∈ Finset.range (ax.p.toNat + 1), bpoly ax e r = 1 := by
  have hel := isElement_sp hw h0 h1
  have hp := hw.legal.degree
  have := Bsp.piece_sum ax.U (sp ax e) ax.p.toNat (sep_sp hw h0 h1)
  rw [Int.toNat_of_nonneg (by omega)] at this
  exact this

theorem line_points {δ : Direction Line} (hl : δ.X.length = δ.W.length) (k : Int) :
    ((δ.X.zip δ.W).map (ptOf δ k)).map Pt.x = δ.X.map fun x => (x + 1) * ((δ.ax.U (k+1) - δ.ax.U k) / 2) + δ.ax.U k := by
  rw [List.map_map]
  have : δ.X = (δ.X.zip δ.W).map Prod.fst := by rw [List.map_fst_zip (by omega)]
  conv_rhs => rw [this, List.map_map]
  rfl

/-- One direction: zero at all points, or derivative zero at all points. -/
theorem line_independent {δ : Direction Line} (hT : δ.Tabulated) (hw : WF δ.ax) (hE : Enough δ) {e : Int} (h0 : 0 ≤ e) (h1 : e < δ.ax.nel)
    (o : Nat) (ho : o ≤ 1) (c : Nat → ℝ)
    (h : ∀ p ∈ (δ.X.zip δ.W).map (ptOf δ (sp δ.ax e)), ∑ r ∈ Finset.range (δ.ax.p.toNat + 1), c r * (derivative^[o] (bpoly δ.ax e r)).eval p.x = 0)
    (r : Nat) (hr : r ≤ δ.ax.p.toNat) : (if o = 0 then c r else c r - c 0) = 0 := by
  have hel := isElement_sp hw h0 h1
  have hp := hw.legal.degree
  obtain ⟨huge, n, -, b2, b3, -, -, -⟩ := elems_of hT
  have hsep := sep_sp hw h0 h1
  set Y := ((δ.X.zip δ.W).map (ptOf δ (sp δ.ax e))).map Pt.x with hY
  have hY2 := line_points (δ := δ) (by omega) (sp δ.ax e)
  rw [← hY] at hY2
  have hlen : Y.length = δ.X.length := by rw [hY2]; simp
  have hJ : (δ.ax.U (sp δ.ax e + 1) - δ.ax.U (sp δ.ax e)) / 2 ≠ 0 := by
    have := hel.2.2
    have h2 : 0 < (δ.ax.U (sp δ.ax e + 1) - δ.ax.U (sp δ.ax e)) / 2 := by linarith
    exact h2.ne'
  have hnd : Y.Nodup := by
    rw [hY2]
    refine List.Nodup.map (fun a b hab => ?_) hE.1
    simp only [add_left_inj] at hab
    have := mul_right_cancel₀ hJ hab
    linarith
  have hh : ∀ x ∈ Y, (∑ r ∈ Finset.range (δ.ax.p.toNat + 1), C (c r) * derivative^[o] (bpoly δ.ax e r)).eval x = 0 := by
    intro x hx
    obtain ⟨p, hp, rfl⟩ := List.mem_map.1 hx
    rw [← h p hp, eval_finset_sum]
    exact Finset.sum_congr rfl fun r _ => by rw [eval_mul, eval_C]
  have hdeg : ∀ r, (bpoly δ.ax e r).degree ≤ (δ.ax.p.toNat : WithBot ℕ) := fun r => Bsp.piece_natDegree _ _ _ _
  have hzero : ∑ r ∈ Finset.range (δ.ax.p.toNat + 1), C (c r) * derivative^[o] (bpoly δ.ax e r) = 0 := by
    refine Bsp.poly_zero_of_points (p := δ.ax.p.toNat) ?_ hnd (by have := hE.2; omega) hh
    refine (degree_sum_le _ _).trans (Finset.sup_le fun r _ => (degree_mul_le _ _).trans ?_)
    have hc : (C (c r)).degree ≤ 0 := degree_C_le
    have hd : (derivative^[o] (bpoly δ.ax e r)).degree ≤ (δ.ax.p.toNat : WithBot ℕ) := by
      rcases (show o = 0 ∨ o = 1 by omega) with rfl | rfl
      · exact hdeg r
      · exact (degree_derivative_le).trans (hdeg r)
    calc _ ≤ (0 : WithBot ℕ) + δ.ax.p.toNat := add_le_add hc hd
      _ = _ := zero_add _
  have hind : ∀ a : Nat → ℝ, ∑ r ∈ Finset.range (δ.ax.p.toNat + 1), C (a r) * bpoly δ.ax e r = 0 → ∀ r ≤ δ.ax.p.toNat, a r = 0 := by
    intro a ha
    refine Bsp.pieces_independent δ.ax.U (sp δ.ax e) δ.ax.p.toNat hsep a ?_
    rw [← ha]
    refine Finset.sum_congr rfl fun r _ => ?_
    unfold bpoly
    rw [Int.toNat_of_nonneg (by omega)]
  rcases (show o = 0 ∨ o = 1 by omega) with rfl | rfl
  · rw [if_pos rfl]
    exact hind c (by simpa using hzero) r hr
  · rw [if_neg (by omega)]
    set P := ∑ r ∈ Finset.range (δ.ax.p.toNat + 1), C (c r) * bpoly δ.ax e r with hP
    have hder : derivative P = 0 := by
      rw [hP, derivative_sum, ← hzero]
      refine Finset.sum_congr rfl fun r _ => ?_
      simp [derivative_C_mul]
    have hconst : P = C (P.coeff 0) := eq_C_of_derivative_eq_zero hder
    have hz : ∑ r ∈ Finset.range (δ.ax.p.toNat + 1), C (c r - P.coeff 0) * bpoly δ.ax e r = 0 := by
      have e1 : ∑ r ∈ Finset.range (δ.ax.p.toNat + 1), C (c r - P.coeff 0) * bpoly δ.ax e r =
          P - C (P.coeff 0) * ∑ r ∈ Finset.range (δ.ax.p.toNat + 1), bpoly δ.ax e r := by
        rw [hP, Finset.mul_sum, ← Finset.sum_sub_distrib]
        refine Finset.sum_congr rfl fun r _ => ?_
        rw [C_sub]; ring
      rw [e1, bpoly_sum hw h0 h1, mul_one, ← hconst, sub_self]
    have a1 := hind _ hz r hr
    have a2 := hind _ hz 0 (by omega)
    linarith

theorem list_sum_sub {α : Type} (l : List α) (f g : α → ℝ) : (l.map fun a => f a - g a).sum = (l.map f).sum - (l.map g).sum := by
  induction l with
  | nil => simp
  | cons a l ih => simp only [List.map_cons, List.sum_cons, ih]; ring

/-- Differences with index 0 in the directions with order 1. -/
def diffs : List Nat → (List Int → ℝ) → List Int → ℝ
  | o :: os, u, i :: is => diffs os (fun is => if o = 0 then u (i :: is) else u (i :: is) - u (0 :: is)) is
  | _, u, t => u t

theorem tensor_independent : ∀ (ds : List (Direction Line)) (e : List Int) (os : List Nat), (∀ δ ∈ ds, δ.Tabulated) →
    (∀ δ ∈ ds, WF δ.ax) → (∀ δ ∈ ds, Enough δ) → InBox (ds.map fun δ => δ.ax.nel) e → os.length = ds.length → (∀ o ∈ os, o ≤ 1) →
    ∀ u : List Int → ℝ,
    (∀ pts ∈ tensorPoints (lines ds e), ((indices (nens (ds.map Direction.ax))).map fun t =>
      u t * evalProd (bpolys (ds.map Direction.ax) e os t) (pts.map Pt.x)).sum = 0) →
    ∀ t ∈ indices (nens (ds.map Direction.ax)), diffs os u t = 0
  | [], _, os, _, _, _, he, ho, _, u, h => by
    cases he
    have : os = [] := by simpa using ho
    subst this
    intro t ht
    have := h [] (by simp [lines, tensorPoints])
    simp only [nens, List.map_nil, indices, List.mem_singleton] at ht
    subst ht
    simpa [nens, indices, bpolys, evalProd, diffs] using this
  | δ :: ds, _, o :: os, hT, hw, hE, he, ho, ho1, u, h => by
    cases he with
    | cons he0 he =>
    rename_i e0 es
    have hp := (hw δ (by simp)).legal.degree
    have hn : nens ((δ :: ds).map Direction.ax) = (δ.ax.p + 1) :: nens (ds.map Direction.ax) := rfl
    rw [hn]
    intro t ht
    have htb := (mem_indices _ _).1 ht
    cases htb with
    | cons ht0 htb =>
    rename_i i is
    have hi : ∃ r : Nat, i = r := ⟨i.toNat, by omega⟩
    obtain ⟨r, rfl⟩ := hi
    rw [diffs]
    refine tensor_independent ds es os (fun d h => hT d (by simp [h])) (fun d h => hw d (by simp [h])) (fun d h => hE d (by simp [h]))
      he (by simpa using ho) (fun o h => ho1 o (by simp [h])) _ ?_ is ((mem_indices _ _).2 htb)
    intro pts hpts
    set g : List Int → ℝ := fun t => evalProd (bpolys (ds.map Direction.ax) es os t) (pts.map Pt.x) with hg
    have key := line_independent (hT δ (by simp)) (hw δ (by simp)) (hE δ (by simp)) he0.1 he0.2 o (ho1 o (by simp))
      (fun r => ((indices (nens (ds.map Direction.ax))).map fun t => u ((r:Int) :: t) * g t).sum) (by
        intro p hp'
        have hm : p :: pts ∈ tensorPoints (lines (δ :: ds) (e0 :: es)) := by
          rw [show lines (δ :: ds) (e0 :: es) = (δ.X.zip δ.W).map (ptOf δ (sp δ.ax e0)) :: lines ds es from rfl, tensorPoints]
          exact List.mem_flatMap.2 ⟨pts, hpts, List.mem_map.2 ⟨p, hp', rfl⟩⟩
        have h1 := h _ hm
        rw [hn, sum_indices, show (δ.ax.p + 1).toNat = δ.ax.p.toNat + 1 by omega] at h1
        rw [finset_list, ← h1]
        congr 1
        refine List.map_congr_left fun k _ => ?_
        rw [mul_comm, ← List.sum_map_mul_left]
        congr 1
        refine List.map_congr_left fun t _ => ?_
        simp only [hg, List.map_cons, bpolys, evalProd, List.zipWith_cons_cons, List.prod_cons, Int.toNat_natCast]
        ring) r (by omega)
    by_cases h0 : o = 0
    · rw [if_pos h0] at key
      rw [← key]
      congr 1
      exact List.map_congr_left fun t _ => by rw [if_pos h0]
    · rw [if_neg h0] at key
      rw [← key, ← list_sum_sub]
      congr 1
      refine List.map_congr_left fun t _ => ?_
      rw [if_neg h0]
      push_cast
      ring
  | _ :: _, _, [], _, _, _, _, ho, _, _, _ => by simp at ho

theorem diffs_zero : ∀ (n : Nat) (u : List Int → ℝ) (t : List Int), diffs (List.replicate n 0) u t = u t
  | 0, u, t => by cases t <;> rfl
  | n+1, u, [] => rfl
  | n+1, u, i :: is => by
    rw [List.replicate_succ, diffs, diffs_zero n]
    rfl

end PetIGA.Itg
