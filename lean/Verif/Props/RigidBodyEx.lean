import Verif.Props.RigidBody
import Verif.Props.LaplaceEx
/-
Cases to which the theorems of Props/RigidBody apply.
-/
set_option linter.unusedSectionVars false
namespace PetIGA.Itg
open PetIGA.Quad PetIGA.Drv PetIGA.Spec PetIGA.Ax PetIGA.Lay PetIGA.Asm PetIGA.Rule PetIGA.Grid PetIGA.Part PetIGA.Ker PetIGA.SetUp PetIGA.PCA PetIGA.Crd

/-- Linear elasticity with one Lamé parameter: the product of the strains of two functions. -/
noncomputable def elastic {d nsd n : Nat} (p : PtData d nsd n) (q : Int) : ℝ :=
  let i := q.toNat / (n * d)
  let j := q.toNat % (n * d)
  if h : (i / d < n ∧ j / d < n) ∧ i % d < d ∧ j % d < d then
    (if i % d = j % d then ∑ l, p.shape.t1 l ⟨i / d, h.1.1⟩ * p.shape.t1 l ⟨j / d, h.1.2⟩ else 0)
      + p.shape.t1 ⟨j % d, h.2.2⟩ ⟨i / d, h.1.1⟩ * p.shape.t1 ⟨i % d, h.2.1⟩ ⟨j / d, h.1.2⟩
  else 0

theorem elastic_entry {d nsd n : Nat} (p : PtData d nsd n) (b a : Fin n) (m l : Fin d) :
    elastic p ((((b:Nat) * d + m) * (n * d) + ((a:Nat) * d + l) : Nat) : Int) =
      (if m = l then ∑ i, p.shape.t1 i b * p.shape.t1 i a else 0) + p.shape.t1 l b * p.shape.t1 m a := by
  have hm := m.2
  have hl := l.2
  have h1 : (a:Nat) * d + l < n * d := by
    calc (a:Nat) * d + l < (a:Nat) * d + d := by omega
      _ = ((a:Nat) + 1) * d := by ring
      _ ≤ n * d := Nat.mul_le_mul_right _ a.2
  have e1 : (((b:Nat) * d + m) * (n * d) + ((a:Nat) * d + l)) / (n * d) = (b:Nat) * d + m := by
    rw [mul_comm, Nat.mul_add_div (by omega), Nat.div_eq_of_lt h1, add_zero]
  have e2 : (((b:Nat) * d + m) * (n * d) + ((a:Nat) * d + l)) % (n * d) = (a:Nat) * d + l := by
    rw [mul_comm, Nat.mul_add_mod, Nat.mod_eq_of_lt h1]
  have e3 : ∀ x y : Nat, y < d → (x * d + y) / d = x ∧ (x * d + y) % d = y := by
    intro x y hy
    rw [mul_comm]
    exact ⟨by rw [Nat.mul_add_div (by omega), Nat.div_eq_of_lt hy, add_zero], by rw [Nat.mul_add_mod, Nat.mod_eq_of_lt hy]⟩
  unfold elastic
  simp only [Int.toNat_natCast, e1, e2, (e3 _ _ hm).1, (e3 _ _ hm).2, (e3 _ _ hl).1, (e3 _ _ hl).2, a.2, b.2, hm, hl, and_self, dite_true, Fin.eta,
    Fin.val_inj]

theorem elastic_strain {d nsd n : Nat} : StrainOnly (elastic (d := d) (nsd := nsd) (n := n)) := by
  intro p U hU b m
  simp only [elastic_entry]
  simp only [add_mul, Finset.sum_add_distrib]
  have h1 : ∀ a : Fin n, ∑ l : Fin d, (if m = l then ∑ i, p.shape.t1 i b * p.shape.t1 i a else 0) * U a l =
      ∑ i, p.shape.t1 i b * (U a m * p.shape.t1 i a) := by
    intro a
    rw [Finset.sum_eq_single m (fun l _ h => by rw [if_neg (Ne.symm h), zero_mul]) (fun h => absurd (Finset.mem_univ _) h), if_pos rfl, Finset.sum_mul]
    exact Finset.sum_congr rfl fun i _ => by ring
  rw [Finset.sum_congr rfl fun a _ => h1 a]
  rw [Finset.sum_comm, Finset.sum_comm (s := Finset.univ (α := Fin n)), ← Finset.sum_add_distrib]
  refine Finset.sum_eq_zero fun i _ => ?_
  have := hU i m
  calc _ = p.shape.t1 i b * (∑ a, U a m * p.shape.t1 i a + ∑ a, U a i * p.shape.t1 m a) := by
        rw [mul_add, Finset.mul_sum, Finset.mul_sum]
        congr 1
        exact Finset.sum_congr rfl fun a _ => by ring
    _ = 0 := by rw [this, mul_zero]

/-- `C89_rigid_body_partial` applies: two processes, degree 2, Simpson's rule, elasticity. -/
example (g2 : Guess2) (g3 : Guess3) (J : Bsp.Junk ℝ) (hist : Nat → Hist) (pw : Nat → List Int → PWork ℝ) (w : Nat → List Int → Work ℝ) (huge : ℝ) :
    ∃ (Ls : List (Layout ℝ)) (elt : List Int → Elt ℝ (PtData (exLines J).length 2 (nenOf ((exLines J).map Direction.ax)))),
    ∃ ms A, createRigidBody huge [.bspline, .bspline] 0 2 Ls (fun _ => none) = .ok ms ∧
      computeMatrix Ls hist 2 ⟨elt, pw, w⟩ (fun p A => .ok fun i => A i + elastic p i) = .ok A ∧ ms.length = 3 ∧
      ∀ m ∈ ms, ∀ i : Nat, i < total ((exLines J).map Direction.ax) 2 →
        ∑ j ∈ Finset.range (total ((exLines J).map Direction.ax) 2), A ((i:Int), (j:Int)) * m j = 0 := by
  obtain ⟨Ls, S⟩ := exRealSetup g2 g3
  have S' : Setup g2 g3 false 2 [2,1] [exRealAx, exRealAx] ((exLines J).map Direction.ax) Ls := S
  have hok := exLines_ok J
  have hw := setup_facts S'
  obtain ⟨mem⟩ := exMem J
  have htab : ∀ e, InBox ((exLines J).map fun δ => δ.ax.nel) e →
      ∃ qs, tabulateElement (exPtB J) ((exLines J).map Direction.B) e mem = .ok qs := fun e he =>
    tabulateElement_ok rfl hw.1 hw.2.1 (fun δ h => (hok δ h).1) (fun δ h => (hok δ h).2.1) hw.2.2 (exPtB J) (.inl rfl) he mem
  choose! qs hqs using htab
  refine ⟨Ls, exEltN J qs, ?_⟩
  obtain ⟨ms, A, h1, h2, ⟨h3, -⟩, h4⟩ := C89_rigid_body_partial S' (fun δ h => (hok δ h).1) (fun δ h => (hok δ h).2.1) (by
      intro δ hδ
      simp only [exLines, exLine, List.mem_cons, List.not_mem_nil, or_false, or_self] at hδ
      subst hδ
      rfl) (c := fun _ => exPtB J) (elt := exEltN J qs) (fun e => ⟨le_refl _, rfl, rfl, rfl⟩) (fun _ => rfl)
    ⟨fun e he => ⟨⟨le_refl _, rfl, ⟨by simp [exEltN], by simp [exEltN]⟩, ⟨by simp [exEltN], by simp [exEltN]⟩⟩, rfl, rfl⟩, fun e he => ⟨mem, hqs e he⟩, fun _ _ _ _ => rfl⟩
    _ elastic (fills_self _ _) elastic_strain hist pw w huge (fun _ => none)
  have h3' : ms.length = 3 := by rw [h3]; simp [exLines]
  refine ⟨ms, A, h1, h2, h3', fun m hm => h4 m ?_⟩
  obtain ⟨j, hj, rfl⟩ := List.mem_iff_getElem.1 hm
  refine ⟨fun i => if i = j then 1 else 0, fun i => ?_⟩
  obtain _ | ⟨a, _ | ⟨b, _ | ⟨c, _ | ⟨d, l⟩⟩⟩⟩ := ms <;> simp at h3'
  have hj : j < 3 := hj
  interval_cases j <;> simp

/-- `C89_geometry_refuted` applies: the control points are the nodes `(i, j)` of a regular grid. -/
example (g2 : Guess2) (g3 : Guess3) (huge : ℝ) :
    ∃ (Ls : List (Layout ℝ)) (xyz : Nat → Option (List ℝ)), HasGeometry Ls 2 xyz (fun z l => (z.getD l 0 : ℝ)) ∧
      ∃ ms m, createRigidBody huge [.bspline, .bspline] 2 2 Ls xyz = .ok ms ∧ ms[2]? = some m ∧
        ¬ IsRigid 2 [exRealAx, exRealAx] (fun z l => (z.getD l 0 : ℝ)) fun z i => m (Blk.unknown Ls [exRealAx, exRealAx] 2 z i) := by
  obtain ⟨Ls, S⟩ : ∃ Ls, Setup g2 g3 false 1 [1,1] [exRealAx, exRealAx] [exRealAx, exRealAx] Ls := by
    refine knot_setup g2 g3 1 [1,1] [exRealAx, exRealAx] ?_ (by simp) ?_ rfl (by omega)
    · intro ax hax
      simp only [List.mem_cons, List.not_mem_nil, or_false, or_self] at hax
      subst hax
      exact ⟨false, 2, 7, exU, rfl, exU_legal, by norm_num [exU], by norm_num [exU]⟩
    · have : gridSize false exRealAx = 3 := by simp [gridSize, exRealAx_nel]
      simp only [List.map_cons, List.map_nil, this]
      exact .cons (by omega) (.cons (by omega) .nil)
  obtain ⟨xyz, hX⟩ := hasGeometry_exists S 2 (fun z l => (z.getD l 0 : ℝ))
  have hlen := S.ranks.1
  obtain ⟨L, hL⟩ : ∃ L, Ls[0]? = some L := ⟨Ls[0]'(by omega), by simp⟩
  have hn : [exRealAx, exRealAx].map Axis.nnp = [5, 5] := by rw [List.map_cons, List.map_cons, exReal_nnp]; rfl
  have own : ∀ z, InBox [5, 5] z → InBlock (L.dir.map Dir.nodeLstart) (L.dir.map Dir.nodeLwidth) z := by
    intro z hz
    obtain ⟨D, hNs⟩ := S.grid
    obtain ⟨r, ⟨hr, hx⟩, -⟩ := D.part.owner z (by rw [hn]; exact hz)
    have hl : (world (appWorld Ls)).length = Ls.length := by unfold world appWorld; simp
    obtain rfl : r = 0 := by omega
    obtain ⟨-, -, hd, hg⟩ := S.get hL
    rw [(own_get hg).1, (own_get hg).2.1, List.map_map, List.map_map] at hx
    exact hx
  have hW := Blk.setup_dirs S hL (R := Blk.DirW false) (fun ax P r a b c d e f => Blk.dirW a b c d e f)
  generalize hd : L.dir = ds at hW own
  obtain _ | @⟨_, d0, _, _, w0, _ | @⟨_, d1, _, _, w1, hnil⟩⟩ := hW
  obtain rfl : _ = [] := List.forall₂_nil_left_iff.1 hnil
  have b0 := own [0, 0] (.cons (by omega) (.cons (by omega) .nil))
  have b1 := own [1, 0] (.cons (by omega) (.cons (by omega) .nil))
  have l0 := w0.own
  have l1 := w1.own
  cases b0 with
  | cons x0 y0 =>
  cases b1 with
  | cons x1 y1 =>
  cases y0 with
  | cons v0 _ =>
  have s0 : d0.nodeLstart = 0 := by omega
  have s1 : d1.nodeLstart = 0 := by omega
  refine ⟨Ls, xyz, hX, C89_geometry_refuted S huge _ xyz _ hX 0 L hL d0 d1 hd (by omega) ?_ ?_⟩
  · rw [s0, s1]; simp
  · rw [s0, s1]; simp

end PetIGA.Itg
