import Verif.Model.Demo
import Verif.Props.Poisson
/-
C102: what the demo programs Laplace, Poisson and L2Projection compute.
-/
set_option linter.unusedSectionVars false
namespace PetIGA.Demo
open PetIGA.Quad PetIGA.Drv PetIGA.Spec PetIGA.Ax PetIGA.Lay PetIGA.Asm PetIGA.Rule PetIGA.Grid PetIGA.Part PetIGA.Ker PetIGA.PCA PetIGA.Itg
open Polynomial

/-! ### The loops fill the arrays -/

theorem put_row {n : Nat} (l : List (Fin n)) (o : Int) (k : Fin n → ℝ) (A : Int → ℝ) (j : Int) :
    l.foldl (fun K (b : Fin n) => put K (o + (b:Nat)) (k b)) A j =
      if h : ∃ b ∈ l, j = o + ((b:Nat):Int) then k ⟨(j - o).toNat, by obtain ⟨b, -, rfl⟩ := h; have := b.2; omega⟩ else A j := by
  induction l generalizing A with
  | nil => simp
  | cons a l ih =>
    rw [List.foldl_cons, ih]
    by_cases h : ∃ b ∈ l, j = o + ((b:Nat):Int)
    · rw [dif_pos h, dif_pos (by obtain ⟨b, hb, e⟩ := h; exact ⟨b, by simp [hb], e⟩)]
    · rw [dif_neg h]
      by_cases ha : j = o + ((a:Nat):Int)
      · rw [dif_pos ⟨a, by simp, ha⟩]
        unfold put
        rw [if_pos ha]
        congr 1
        apply Fin.ext
        simp only
        omega
      · rw [dif_neg (by
          rintro ⟨b, hb, e⟩
          rcases List.mem_cons.1 hb with rfl | hb
          · exact ha e
          · exact h ⟨b, hb, e⟩)]
        unfold put
        rw [if_neg ha]

/-- After the loops every entry of the matrix and of the vector is what the statements assign to it. -/
theorem loops_fill (n : Nat) (k : Fin n → Fin n → ℝ) (f : Fin n → ℝ) (KF : (Int → ℝ) × (Int → ℝ)) :
    (∀ a b : Fin n, (loops n k f KF).1 (((a:Nat) * n + (b:Nat) : Nat) : Int) = k a b) ∧ ∀ a : Fin n, (loops n k f KF).2 ((a:Nat) : Int) = f a := by
  have key : ∀ (l : List (Fin n)) (KF : (Int → ℝ) × (Int → ℝ)),
      (∀ a b : Fin n, (l.foldl (fun s (a : Fin n) => ((List.finRange n).foldl (fun K (b : Fin n) => put K (((a:Nat) * n + (b:Nat) : Nat) : Int) (k a b)) s.1,
        put s.2 ((a:Nat) : Int) (f a))) KF).1 (((a:Nat) * n + (b:Nat) : Nat) : Int) = if a ∈ l then k a b else KF.1 (((a:Nat) * n + (b:Nat) : Nat) : Int)) ∧
      ∀ a : Fin n, (l.foldl (fun s (a : Fin n) => ((List.finRange n).foldl (fun K (b : Fin n) => put K (((a:Nat) * n + (b:Nat) : Nat) : Int) (k a b)) s.1,
        put s.2 ((a:Nat) : Int) (f a))) KF).2 ((a:Nat) : Int) = if a ∈ l then f a else KF.2 ((a:Nat) : Int) := by
    intro l
    induction l with
    | nil => intro KF; simp
    | cons c l ih =>
      intro KF
      rw [List.foldl_cons]
      obtain ⟨i1, i2⟩ := ih ((List.finRange n).foldl (fun K (b : Fin n) => put K (((c:Nat) * n + (b:Nat) : Nat) : Int) (k c b)) KF.1, put KF.2 ((c:Nat) : Int) (f c))
      refine ⟨fun a b => ?_, fun a => ?_⟩
      · rw [i1 a b]
        by_cases hl : a ∈ l
        · rw [if_pos hl, if_pos (by simp [hl])]
        · rw [if_neg hl]
          dsimp only
          have := put_row (List.finRange n) (((c:Nat) * n : Nat) : Int) (k c) KF.1 (((a:Nat) * n + (b:Nat) : Nat) : Int)
          simp only [← Nat.cast_add] at this
          rw [this]
          have hb := b.2
          by_cases hc : a = c
          · subst hc
            rw [dif_pos ⟨b, by simp, by simp⟩, if_pos (by simp)]
            congr 1
            apply Fin.ext
            simp
          · rw [if_neg (by simp [hl, hc]), dif_neg]
            rintro ⟨b', -, e⟩
            have hb' := b'.2
            have e' : (a:Nat) * n + (b:Nat) = (c:Nat) * n + (b':Nat) := by exact_mod_cast e
            have h1 := congrArg (· / n) e'
            simp only [Nat.mul_comm _ n] at h1
            rw [Nat.mul_add_div (by omega), Nat.mul_add_div (by omega), Nat.div_eq_of_lt hb, Nat.div_eq_of_lt hb'] at h1
            exact hc (Fin.ext (by simpa using h1))
      · rw [i2 a]
        by_cases hl : a ∈ l
        · rw [if_pos hl, if_pos (by simp [hl])]
        · rw [if_neg hl]
          dsimp only
          unfold put
          by_cases hc : a = c
          · subst hc; simp
          · rw [if_neg (fun h => hc (Fin.ext (by exact_mod_cast h))), if_neg (by simp [hl, hc])]
  obtain ⟨h1, h2⟩ := key (List.finRange n) KF
  refine ⟨fun a b => (h1 a b).trans (if_pos (by simp)), fun a => (h2 a).trans (if_pos (by simp))⟩

theorem dot_eq {d : Nat} (a b : Fin d → ℝ) : dot a b = ∑ i, a i * b i := by
  unfold dot
  have : ∀ (l : List (Fin d)) (s : ℝ), l.foldl (fun s i => s + a i * b i) s = s + (l.map fun i => a i * b i).sum := by
    intro l
    induction l with
    | nil => intro s; simp
    | cons i l ih => intro s; rw [List.foldl_cons, ih]; simp only [List.map_cons, List.sum_cons]; ring
  rw [this, zero_add, ← List.ofFn_eq_map, List.sum_ofFn]

/-- Entry of the point matrix at position `i`. -/
def rowMajor {n : Nat} (k : Fin n → Fin n → ℝ) (i : Int) : ℝ :=
  if h : 0 < n ∧ i.toNat / n < n then k ⟨i.toNat / n, h.2⟩ ⟨i.toNat % n, Nat.mod_lt _ h.1⟩ else 0

/-- Entry of the point vector at position `i`. -/
def entry {n : Nat} (f : Fin n → ℝ) (i : Int) : ℝ := if h : i.toNat < n then f ⟨i.toNat, h⟩ else 0

theorem rowMajor_at {n : Nat} (k : Fin n → Fin n → ℝ) (a b : Fin n) : rowMajor k (((a:Nat) * n + (b:Nat) : Nat) : Int) = k a b := by
  have hb := b.2
  have ha := a.2
  have h1 : ((a:Nat) * n + (b:Nat)) / n = a := by rw [Nat.mul_comm, Nat.mul_add_div (by omega), Nat.div_eq_of_lt hb, Nat.add_zero]
  have h2 : ((a:Nat) * n + (b:Nat)) % n = b := by rw [Nat.mul_comm, Nat.mul_add_mod, Nat.mod_eq_of_lt hb]
  unfold rowMajor
  rw [dif_pos ⟨by omega, by rw [Int.toNat_natCast, h1]; exact ha⟩]
  congr 1
  · exact Fin.ext h1
  · exact Fin.ext h2

theorem fills {P : Type} {n m : Nat} (hm : m = n) (cb : P → (Int → ℝ) → (Int → ℝ) → Res ((Int → ℝ) × (Int → ℝ))) (k : P → Fin n → Fin n → ℝ)
    (f : P → Fin n → ℝ) (h : ∀ p K F, cb p K F = .ok (loops n (k p) (f p) (K, F))) :
    FillsSys m m cb (fun p => rowMajor (k p)) (fun p => entry (f p)) := by
  subst hm
  intro p A B _ _
  obtain ⟨h1, h2⟩ := loops_fill m (k p) (f p) (A, B)
  refine ⟨(loops m (k p) (f p) (A, B)).1, (loops m (k p) (f p) (A, B)).2, h p A B, fun i h0 hi => ?_, fun i h0 hi => ?_⟩
  · obtain ⟨j, rfl⟩ := Int.eq_ofNat_of_zero_le h0
    have hj : j < m * m := by exact_mod_cast hi
    have hm : 0 < m := Nat.pos_of_mul_pos_left (Nat.lt_of_le_of_lt (Nat.zero_le _) hj)
    have e : ((⟨j / m, Nat.div_lt_of_lt_mul hj⟩ : Fin m) : Nat) * m + ((⟨j % m, Nat.mod_lt _ hm⟩ : Fin m) : Nat) = j := by
      simp only; rw [Nat.mul_comm]; exact Nat.div_add_mod j m
    have q1 := h1 ⟨j / m, Nat.div_lt_of_lt_mul hj⟩ ⟨j % m, Nat.mod_lt _ hm⟩
    have q2 := rowMajor_at (k p) ⟨j / m, Nat.div_lt_of_lt_mul hj⟩ ⟨j % m, Nat.mod_lt _ hm⟩
    rw [e] at q1 q2
    exact q1.trans q2.symm
  · obtain ⟨j, rfl⟩ := Int.eq_ofNat_of_zero_le h0
    have hj : j < m := by exact_mod_cast hi
    have q1 := h2 ⟨j, hj⟩
    refine q1.trans ?_
    show _ = entry (f p) _
    unfold entry
    rw [dif_pos (by simpa using hj)]
    rfl

theorem unknowns_one {K : Type} [Field K] [LinearOrder K] (axs : List (Axis K)) : unknowns axs 1 = nenOf axs := by
  unfold unknowns nenOf; omega

theorem gramForm {P : Type} {n : Nat} (L : List (P → Fin n → ℝ)) (k : P → Fin n → Fin n → ℝ) (h : ∀ p a b, k p a b = (L.map fun g => g p a * g p b).sum) :
    GramForm 1 n L (fun _ => 1) (fun p => rowMajor (k p)) := by
  intro p a b c d hc hd
  obtain rfl : c = 0 := by omega
  obtain rfl : d = 0 := by omega
  simp only [Nat.mul_one, Nat.add_zero, if_true, one_mul]
  rw [rowMajor_at, h]

theorem loadForm {P : Type} {n : Nat} (L : List ((P → Fin n → ℝ) × (P → Nat → ℝ))) (f : P → Fin n → ℝ)
    (h : ∀ p a, f p a = (L.map fun g => g.1 p a * g.2 p 0).sum) : LoadForm 1 n L (fun _ => 1) (fun p => entry (f p)) := by
  intro p a c hc
  obtain rfl : c = 0 := by omega
  simp only [Nat.mul_one, Nat.add_zero, one_mul]
  unfold entry
  rw [dif_pos (by simpa using a.2), ← h]
  congr 1

/-! ### The boundary conditions -/

theorem inForce_mem {V : Type} {a s k : Int} {v : V} : ∀ {es : List (BCEvent V)}, inForce a s k es = some v → BCEvent.set a s k v ∈ es
  | [], h => by simp [inForce] at h
  | .set a' s' c' v' :: es, h => by
    unfold inForce at h
    split_ifs at h with hc
    · obtain ⟨-, rfl, rfl, rfl⟩ := hc
      cases h
      simp
    · exact List.mem_cons_of_mem _ (inForce_mem h)
  | .clear a' s' :: es, h => by
    unfold inForce at h
    split_ifs at h
    exact List.mem_cons_of_mem _ (inForce_mem h)

theorem inForce_some {V : Type} {a s k : Int} {v : V} : ∀ {es : List (BCEvent V)}, (∀ a s, BCEvent.clear a s ∉ es) → BCEvent.set a s k v ∈ es →
    (BCEvent.set a s k v).legal → (inForce a s k es).isSome
  | [], _, h, _ => by simp at h
  | .set a' s' c' v' :: es, hn, h, hl => by
    unfold inForce
    split_ifs with hc
    · rfl
    · rcases List.mem_cons.1 h with e | h
      · cases e
        exact absurd ⟨hl, rfl, rfl, rfl⟩ hc
      · exact inForce_some (fun a s hm => hn a s (List.mem_cons_of_mem _ hm)) h hl
  | .clear a' s' :: es, hn, _, _ => absurd (List.mem_cons_self ..) (hn a' s')

theorem mem_valueEvents {a s k : Int} {v : ℝ} : ∀ {ops : List (Form.Op ℝ)}, BCEvent.set a s k v ∈ Form.valueEvents ops ↔ Form.Op.setValue a s k v ∈ ops
  | [] => by simp [Form.valueEvents]
  | .setValue .. :: os => by
    rw [Form.valueEvents, List.mem_append, mem_valueEvents (ops := os)]
    simp [or_comm]
  | .setLoad .. :: os => by simp only [Form.valueEvents, mem_valueEvents (ops := os)]; simp
  | .setForm .. :: os => by simp only [Form.valueEvents, mem_valueEvents (ops := os)]; simp
  | .clear .. :: os => by
    rw [Form.valueEvents, List.mem_append, mem_valueEvents (ops := os)]
    simp

theorem clear_valueEvents {a s : Int} : ∀ {ops : List (Form.Op ℝ)}, BCEvent.clear a s ∈ Form.valueEvents ops ↔ Form.Op.clear a s ∈ ops
  | [] => by simp [Form.valueEvents]
  | .setValue .. :: os => by
    rw [Form.valueEvents, List.mem_append, clear_valueEvents (ops := os)]
    simp
  | .setLoad .. :: os => by simp only [Form.valueEvents, clear_valueEvents (ops := os)]; simp
  | .setForm .. :: os => by simp only [Form.valueEvents, clear_valueEvents (ops := os)]; simp
  | .clear .. :: os => by
    rw [Form.valueEvents, List.mem_append, clear_valueEvents (ops := os)]
    simp [or_comm]

theorem mem_loadEvents {a s k : Int} {v : ℝ} : ∀ {ops : List (Form.Op ℝ)}, BCEvent.set a s k v ∈ Form.loadEvents ops → Form.Op.setLoad a s k v ∈ ops
  | [], h => by simp [Form.loadEvents] at h
  | .setLoad .. :: os, h => by
    rw [Form.loadEvents, List.mem_append] at h
    rcases h with h | h
    · exact List.mem_cons_of_mem _ (mem_loadEvents h)
    · simp at h; simp [h]
  | .setValue .. :: os, h => by simp only [Form.loadEvents] at h; exact List.mem_cons_of_mem _ (mem_loadEvents h)
  | .setForm .. :: os, h => by simp only [Form.loadEvents] at h; exact List.mem_cons_of_mem _ (mem_loadEvents h)
  | .clear .. :: os, h => by
    rw [Form.loadEvents, List.mem_append] at h
    rcases h with h | h
    · exact List.mem_cons_of_mem _ (mem_loadEvents h)
    · simp at h

/-- A value in force was set. -/
theorem prescribed_value {axs : List (Axis ℝ)} {ops : List (Form.Op ℝ)} {v0 : ℝ} (h : ∀ a s k v, Form.Op.setValue a s k v ∈ ops → v = v0)
    {q} {v : ℝ} (hv : Fix.prescribedAt axs ops none q = some v) : v = v0 := by
  unfold Fix.prescribedAt at hv
  obtain ⟨v', h1, h2⟩ := Option.map_eq_some_iff.1 hv
  unfold nodePrescribed at h1
  obtain ⟨s, -, hs⟩ := List.exists_of_findSome?_eq_some h1
  dsimp only at hs
  split at hs
  swap
  · cases hs
  have e : v' = v := h2
  rw [← e]
  exact h _ _ _ _ (mem_valueEvents.1 (inForce_mem hs))

/-- A first node of a direction that is not periodic is constrained if a value was set on the first side of that direction. -/
theorem first_constrained {axs : List (Axis ℝ)} (hw : ∀ ax ∈ axs, WF ax) (hn : ∀ ax ∈ axs, 0 < ax.nel) (h3 : axs.length ≤ 3) {ops : List (Form.Op ℝ)} {v0 : ℝ}
    (hc : ∀ a s, Form.Op.clear a s ∉ ops) (hset : ∀ j : Nat, j < axs.length → Form.Op.setValue j 0 0 v0 ∈ ops)
    (hper : ∃ ax ∈ axs, ax.periodic = false) :
    ∃ z, InBox (axs.map Axis.nnp) z ∧ (Fix.prescribedAt axs ops none (z, 0)).isSome := by
  obtain ⟨ax, hax, hp⟩ := hper
  obtain ⟨j, hj, rfl⟩ := List.mem_iff_getElem.1 hax
  refine ⟨axs.map fun ax => if ax.periodic then 0 else sp ax 0 - ax.p, ?_, ?_⟩
  · unfold InBox
    rw [List.forall₂_map_left_iff, List.forall₂_map_right_iff, List.forall₂_same]
    intro ax hax
    have h := hw ax hax
    obtain ⟨b1, b2, b3, -⟩ := nnp_bounds h
    have hd := h.legal.degree
    have he := h.legal.enough
    split_ifs with hq
    · constructor
      · exact le_refl _
      · omega
    · have hq' : ax.periodic = false := by simpa using hq
      obtain ⟨c1, c2, -⟩ := isElement_sp h (e := 0) (le_refl _) (hn ax hax)
      have := b3 hq'
      show 0 ≤ sp ax 0 - ax.p ∧ sp ax 0 - ax.p < ax.nnp
      omega
  · unfold Fix.prescribedAt nodePrescribed
    rw [Option.isSome_map, List.isSome_findSome?, List.any_eq_true]
    refine ⟨(j, false), ?_, ?_⟩
    · rw [List.mem_reverse]
      unfold sides
      rw [List.mem_flatMap]
      exact ⟨j, List.mem_range.2 (by simpa [Fix.nodeDirs] using hj), by simp⟩
    · rw [if_pos]
      · refine inForce_some (v := v0) (fun a s hm => hc a s (clear_valueEvents.1 hm)) (mem_valueEvents.2 (hset j hj)) ?_
        unfold BCEvent.legal
        omega
      · unfold OnGridSide Fix.nodeDirs
        simp only [List.getElem?_map, List.getElem?_eq_getElem hj, Option.map_some, hp, Bool.false_eq_true, if_false, Bool.not_false, Bool.true_and,
          decide_eq_true_eq]
        unfold sp
        rw [List.headD_eq_head?_getD]
        simp [List.head?_eq_getElem?]

theorem laplace_value {dim : Nat} {a s k : Int} {v : ℝ} (h : Form.Op.setValue a s k v ∈ laplaceConditions dim) : v = 1 := by
  unfold laplaceConditions at h
  obtain ⟨d, -, h⟩ := List.mem_flatMap.1 h
  simp at h
  exact h.2.2.2

theorem laplace_load {dim : Nat} {a s k : Int} {v : ℝ} (h : Form.Op.setLoad a s k v ∈ laplaceConditions dim) : v = 0 := by
  unfold laplaceConditions at h
  obtain ⟨d, -, h⟩ := List.mem_flatMap.1 h
  simp at h
  exact h.2.2.2

theorem laplace_noLoads (dim : Nat) : NoLoads (laplaceConditions dim) :=
  fun _ _ _ _ h => laplace_load (mem_loadEvents (inForce_mem h))

theorem laplace_noClear (dim : Nat) (a s : Int) : Form.Op.clear a s ∉ laplaceConditions dim := by
  intro h
  unfold laplaceConditions at h
  obtain ⟨d, -, h⟩ := List.mem_flatMap.1 h
  simp at h

theorem laplace_set {dim j : Nat} (h : j < dim) : Form.Op.setValue j 0 0 1 ∈ laplaceConditions dim := by
  unfold laplaceConditions
  exact List.mem_flatMap.2 ⟨j, List.mem_range.2 h, by simp⟩

theorem poisson_value {dim : Nat} {a s k : Int} {v : ℝ} (h : Form.Op.setValue a s k v ∈ poissonConditions dim) : v = 1 := by
  unfold poissonConditions at h
  obtain ⟨d, -, h⟩ := List.mem_flatMap.1 h
  obtain ⟨s', -, h⟩ := List.mem_map.1 h
  cases h
  rfl

theorem poisson_noLoads (dim : Nat) : NoLoads (poissonConditions dim) := by
  intro a s k v h
  have h := mem_loadEvents (inForce_mem h)
  unfold poissonConditions at h
  obtain ⟨d, -, h⟩ := List.mem_flatMap.1 h
  obtain ⟨s', -, h⟩ := List.mem_map.1 h
  cases h

theorem poisson_noClear (dim : Nat) (a s : Int) : Form.Op.clear a s ∉ poissonConditions dim := by
  intro h
  unfold poissonConditions at h
  obtain ⟨d, -, h⟩ := List.mem_flatMap.1 h
  obtain ⟨s', -, h⟩ := List.mem_map.1 h
  cases h

theorem poisson_set {dim j : Nat} {s : Nat} (h : j < dim) (hs : s < 2) : Form.Op.setValue j s 0 1 ∈ poissonConditions dim := by
  unfold poissonConditions
  exact List.mem_flatMap.2 ⟨j, List.mem_range.2 h, List.mem_map.2 ⟨s, List.mem_range.2 hs, rfl⟩⟩

/-! ### The programs -/

/-- Every direction of a set-up grid has an element. -/
theorem setup_nel {g2 : Guess2} {g3 : Guess3} {size procs axes} {ds : List (Direction Line)} {Ls}
    (S : Setup g2 g3 false size procs axes (ds.map Direction.ax) Ls) : ∀ ax ∈ ds.map Direction.ax, 0 < ax.nel := by
  have hw := Prb.setup_wf S
  have hz : InBox ((ds.map Direction.ax).map Axis.nnp) ((ds.map Direction.ax).map fun _ => 0) := by
    unfold InBox
    rw [List.forall₂_map_left_iff, List.forall₂_map_right_iff, List.forall₂_same]
    intro ax hax
    obtain ⟨b1, -⟩ := nnp_bounds (hw ax hax)
    have := (hw ax hax).legal.enough
    exact ⟨le_refl _, by omega⟩
  obtain ⟨e, t, he, -, -⟩ := node_covered hw S.cond hz
  intro ax hax
  unfold InBox at he
  rw [List.forall₂_map_left_iff] at he
  obtain ⟨i, hi⟩ := List.mem_iff_getElem?.1 hax
  obtain ⟨hl, hh⟩ := List.forall₂_iff_get.1 he
  obtain ⟨hi', rfl⟩ := List.getElem?_eq_some_iff.1 hi
  have := hh i hi' (by omega)
  simp only [List.get_eq_getElem] at this
  omega

/-- **C102**, demo/Laplace.c: whatever the number of processes, the degrees, the knots, the periodic directions (at least one is not), and the
geometry (positive Jacobian), the matrix is symmetric positive definite, as `MatSetOption(A,MAT_SPD,PETSC_TRUE)` claims, and the one
solution of the system is the constant 1. -/
theorem C102_laplace {g2 : Guess2} {g3 : Guess3} {size procs axes} {ds : List (Direction Line)} {Ls}
    (S : Setup g2 g3 false size procs axes (ds.map Direction.ax) Ls)
    (hT : ∀ δ ∈ ds, δ.Tabulated) (hs : ∀ δ ∈ ds, IsSpline δ) (hE : ∀ δ ∈ ds, Enough δ) (hper : ∃ δ ∈ ds, δ.ax.periodic = false) {nsd : Nat}
    {c : List Int → PtIn ds.length nsd (Fin (nenOf (ds.map Direction.ax)))} (hc : ∀ e, FirstOrder (c e))
    {elt : List Int → Elt ℝ (PtData ds.length nsd (nenOf (ds.map Direction.ax)))} (hI : Assembled ds (laplaceConditions ds.length) 1 none c elt)
    (hJ : ∀ e, InBox (ds.map fun δ => δ.ax.nel) e → ∀ q ∈ (elt e).points none, 0 < q.detJac) (hist) (pw) (w) :
    ∃ A b, computeSystem Ls hist 1 ⟨elt, pw, w⟩ laplace = .ok (A, b) ∧ PosDef (total (ds.map Direction.ax) 1) (fun i j => A (i, j)) ∧
      ∀ x : Int → ℝ,
        (∀ i : Nat, i < total (ds.map Direction.ax) 1 → ∑ j ∈ Finset.range (total (ds.map Direction.ax) 1), A ((i:Int), (j:Int)) * x j = b i) ↔
        ∀ i : Nat, i < total (ds.map Direction.ax) 1 → x i = 1 := by
  obtain ⟨l1, l3, hw⟩ := setup_facts S
  have hw' := Prb.setup_wf S
  have hK := fills (P := PtData ds.length nsd (nenOf (ds.map Direction.ax))) (unknowns_one (ds.map Direction.ax)) laplace
    (fun p a b => dot (fun i => p.shape.t1 i a) (fun i => p.shape.t1 i b)) (fun _ _ => 0) (fun _ _ _ => rfl)
  have hk := gramForm (P := PtData ds.length nsd (nenOf (ds.map Direction.ax))) (List.ofFn fun l p a => p.shape.t1 l a)
    (fun p a b => dot (fun i => p.shape.t1 i a) (fun i => p.shape.t1 i b)) (fun p a b => by
      rw [dot_eq, List.map_ofFn, List.sum_ofFn]; rfl)
  have hr := loadForm (P := PtData ds.length nsd (nenOf (ds.map Direction.ax)))
    (List.ofFn fun l => (fun p a => p.shape.t1 l a, fun _ _ => (0:ℝ))) (fun _ _ => 0) (fun p a => by
      rw [List.map_ofFn, List.sum_ofFn]; simp)
  obtain ⟨A, b, h1, h2⟩ := C88_dirichlet S hT hs hE hc hI hJ (fun i hi => by
    obtain rfl : i = 0 := by omega
    exact first_constrained hw' (setup_nel S) (by simpa using l3) (laplace_noClear _) (v0 := 1) (fun j hj => laplace_set (by simpa using hj)) (by
      obtain ⟨δ, hδ, hp⟩ := hper
      exact ⟨δ.ax, List.mem_map_of_mem hδ, hp⟩)) laplace _ _ _ _ hK hk (fun i => List.mem_ofFn.2 ⟨i, rfl⟩)
    (fun _ _ _ _ => one_pos) hist pw w
  obtain ⟨A', b', h1', h3⟩ := C98_exact S hT hs (laplace_noLoads _) hI laplace _ _ _ ⟨hJ, fun _ _ _ _ => one_pos⟩
    (fun l => (fun p a => p.shape.t1 l a, fun _ _ => (0:ℝ))) hK hk hr hist pw w
  rw [h1] at h1'
  cases h1'
  have hone : ∀ x : Int → ℝ, (∀ i : Nat, i < total (ds.map Direction.ax) 1 → x i = 1) →
      ∀ i : Nat, i < total (ds.map Direction.ax) 1 → ∑ j ∈ Finset.range (total (ds.map Direction.ax) 1), A ((i:Int), (j:Int)) * x j = b i := by
    intro x hx
    refine (h3 (fun _ _ => 1) (fun z i _ _ v hv => (prescribed_value (fun a s k v h => laplace_value h) hv).symm) (fun e he q hq l i _ => ?_) x).1 fun z i hz hi => ?_
    · rw [List.map_map] at he
      obtain ⟨mem, hm⟩ := hI.points e he
      exact const_gradient l1 l3 hT hs hw (c e) (hc e) he hm (fun q hq => (hJ e he q hq).ne') _ i 1 (fun _ _ => rfl) q hq l
    · obtain ⟨b0, b1⟩ := unknown_bounds S hz hi
      have := hx (Blk.unknown Ls (ds.map Direction.ax) 1 z i).toNat (by omega)
      rwa [Int.toNat_of_nonneg b0] at this
  refine ⟨A, b, h1, h2, fun x => ⟨fun h => ?_, hone x⟩⟩
  obtain ⟨y, -, hu⟩ := posDef_solve h2 b
  intro i hi
  rw [hu x h i hi, ← hu (fun _ => 1) (hone (fun _ => 1) fun _ _ => rfl) i hi]

/-- **C102**, demo/Laplace.c with NURBS: on a mapped domain with positive weights the constant 1 solves the system. -/
theorem C102_laplace_nurbs {g2 : Guess2} {g3 : Guess3} {size procs axes} {ds : List (Direction Line)} {Ls}
    (S : Setup g2 g3 false size procs axes (ds.map Direction.ax) Ls)
    (hT : ∀ δ ∈ ds, δ.Tabulated) (hs : ∀ δ ∈ ds, IsSpline δ)
    {c : List Int → PtIn ds.length ds.length (Fin (nenOf (ds.map Direction.ax)))} (hR : ∀ e, Weights ds (c e)) (hord : ∀ e, 1 ≤ (c e).order)
    (X : List Int → Nat → ℝ) (hX : ∀ e, ∃ C, (c e).geometry = some C ∧ OnNet (ds.map Direction.ax) e C X)
    {elt : List Int → Elt ℝ (PtData ds.length ds.length (nenOf (ds.map Direction.ax)))} (hI : Assembled ds (laplaceConditions ds.length) 1 none c elt)
    (hJ : ∀ e, InBox (ds.map fun δ => δ.ax.nel) e → ∀ q ∈ (elt e).points none, 0 < q.detJac ∧ q.data.arrays.detX ≠ 0) (hist) (pw) (w) :
    ∃ A b, computeSystem Ls hist 1 ⟨elt, pw, w⟩ laplace = .ok (A, b) ∧
      ∀ i : Nat, i < total (ds.map Direction.ax) 1 → ∑ j ∈ Finset.range (total (ds.map Direction.ax) 1), A ((i:Int), (j:Int)) * 1 = b i := by
  have hK := fills (P := PtData ds.length ds.length (nenOf (ds.map Direction.ax))) (unknowns_one (ds.map Direction.ax)) laplace
    (fun p a b => dot (fun i => p.shape.t1 i a) (fun i => p.shape.t1 i b)) (fun _ _ => 0) (fun _ _ _ => rfl)
  have hk := gramForm (P := PtData ds.length ds.length (nenOf (ds.map Direction.ax))) (List.ofFn fun l p a => p.shape.t1 l a)
    (fun p a b => dot (fun i => p.shape.t1 i a) (fun i => p.shape.t1 i b)) (fun p a b => by
      rw [dot_eq, List.map_ofFn, List.sum_ofFn]; rfl)
  have hr := loadForm (P := PtData ds.length ds.length (nenOf (ds.map Direction.ax)))
    (List.ofFn fun l => (fun p a => p.shape.t1 l a, fun _ _ => (0:ℝ))) (fun _ _ => 0) (fun p a => by
      rw [List.map_ofFn, List.sum_ofFn]; simp)
  obtain ⟨A, b, h1, h3⟩ := C98_exact S hT hs (laplace_noLoads _) hI laplace _ _ _ ⟨fun e he q hq => (hJ e he q hq).1, fun _ _ _ _ => one_pos⟩
    (fun l => (fun p a => p.shape.t1 l a, fun _ _ => (0:ℝ))) hK hk hr hist pw w
  refine ⟨A, b, h1, (h3 (fun _ _ => 1) (fun z i _ _ v hv => (prescribed_value (fun a s k v h => laplace_value h) hv).symm)
    (fun e he q hq l i _ => ?_) (fun _ => 1)).1 fun _ _ _ _ => rfl⟩
  rw [List.map_map] at he
  obtain ⟨mem, hm⟩ := hI.points e he
  obtain ⟨C, hC, hN⟩ := hX e
  have := C97_affine_gradient S hT hs (c e) (hR e) C hC (hord e) he hm X hN 1 (fun _ => 0) i q hq (hJ e he q hq).2 l
  simpa using this

/-- `½ ∫ |∇v|² - ∫ v`, by the rule. -/
noncomputable def dirichletEnergy {d nsd : Nat} (axs : List (Axis ℝ)) (elt : List Int → Elt ℝ (PtData d nsd (nenOf axs))) (v : List Int → Nat → ℝ) : ℝ :=
  ((indices (axs.map Axis.nel)).map fun e => (((elt e).points none).map fun q =>
    ((∑ l, combine axs e (q.data.shape.t1 l) v 0 ^ 2) / 2 - combine axs e q.data.shape.t0 v 0) * (q.detJac * q.weight)).sum).sum

/-- **C102**, demo/Poisson.c: the matrix is symmetric positive definite and the system has exactly one solution; the solution is 1 at every node where
a value is prescribed, and it minimises the energy `½ ∫ |∇v|² - ∫ v` among the fields that are 1 there. -/
theorem C102_poisson {g2 : Guess2} {g3 : Guess3} {size procs axes} {ds : List (Direction Line)} {Ls}
    (S : Setup g2 g3 false size procs axes (ds.map Direction.ax) Ls)
    (hT : ∀ δ ∈ ds, δ.Tabulated) (hs : ∀ δ ∈ ds, IsSpline δ) (hE : ∀ δ ∈ ds, Enough δ) (hper : ∃ δ ∈ ds, δ.ax.periodic = false) {nsd : Nat}
    {c : List Int → PtIn ds.length nsd (Fin (nenOf (ds.map Direction.ax)))} (hc : ∀ e, FirstOrder (c e))
    {elt : List Int → Elt ℝ (PtData ds.length nsd (nenOf (ds.map Direction.ax)))} (hI : Assembled ds (poissonConditions ds.length) 1 none c elt)
    (hJ : ∀ e, InBox (ds.map fun δ => δ.ax.nel) e → ∀ q ∈ (elt e).points none, 0 < q.detJac) (hist) (pw) (w) :
    ∃ A b, computeSystem Ls hist 1 ⟨elt, pw, w⟩ poisson = .ok (A, b) ∧ PosDef (total (ds.map Direction.ax) 1) (fun i j => A (i, j)) ∧
      ∃ x : Int → ℝ,
        (∀ y : Int → ℝ,
          (∀ i : Nat, i < total (ds.map Direction.ax) 1 → ∑ j ∈ Finset.range (total (ds.map Direction.ax) 1), A ((i:Int), (j:Int)) * y j = b i) ↔
          ∀ i : Nat, i < total (ds.map Direction.ax) 1 → y i = x i) ∧
        (∀ z, InBox ((ds.map Direction.ax).map Axis.nnp) z → (Fix.prescribedAt (ds.map Direction.ax) (poissonConditions ds.length) none (z, 0)).isSome →
          x (Blk.unknown Ls (ds.map Direction.ax) 1 z 0) = 1) ∧
        ∀ v : List Int → Nat → ℝ,
          (∀ z, InBox ((ds.map Direction.ax).map Axis.nnp) z → (Fix.prescribedAt (ds.map Direction.ax) (poissonConditions ds.length) none (z, 0)).isSome → v z 0 = 1) →
          dirichletEnergy (ds.map Direction.ax) elt (fun z i => x (Blk.unknown Ls (ds.map Direction.ax) 1 z i)) ≤ dirichletEnergy (ds.map Direction.ax) elt v := by
  obtain ⟨l1, l3, hw⟩ := setup_facts S
  have hw' := Prb.setup_wf S
  have hK := fills (P := PtData ds.length nsd (nenOf (ds.map Direction.ax))) (unknowns_one (ds.map Direction.ax)) poisson
    (fun p a b => dot (fun i => p.shape.t1 i a) (fun i => p.shape.t1 i b)) (fun p a => p.shape.t0 a * 1) (fun _ _ _ => rfl)
  have hk := gramForm (P := PtData ds.length nsd (nenOf (ds.map Direction.ax))) (List.ofFn fun l p a => p.shape.t1 l a)
    (fun p a b => dot (fun i => p.shape.t1 i a) (fun i => p.shape.t1 i b)) (fun p a b => by
      rw [dot_eq, List.map_ofFn, List.sum_ofFn]; rfl)
  obtain ⟨A, b, h1, h2⟩ := C88_dirichlet S hT hs hE hc hI hJ (fun i hi => by
    obtain rfl : i = 0 := by omega
    exact first_constrained hw' (setup_nel S) (by simpa using l3) (poisson_noClear _) (v0 := 1)
      (fun j hj => poisson_set (s := 0) (by simpa using hj) (by omega)) (by
      obtain ⟨δ, hδ, hp⟩ := hper
      exact ⟨δ.ax, List.mem_map_of_mem hδ, hp⟩)) poisson _ _ _ _ hK hk (fun i => List.mem_ofFn.2 ⟨i, rfl⟩)
    (fun _ _ _ _ => one_pos) hist pw w
  obtain ⟨A', b', a, f, h1', hA, hb, hsol⟩ := C80_system S hI.built poisson _ _ hK hist pw w
  rw [h1] at h1'
  cases h1'
  obtain ⟨x, hx, hu⟩ := posDef_solve h2 b
  have hr := loadForm (P := PtData ds.length nsd (nenOf (ds.map Direction.ax)))
    (List.ofFn fun _ : Fin 1 => (fun p a => p.shape.t0 a, fun _ _ => (1:ℝ))) (fun p a => p.shape.t0 a * 1) (fun p a => by simp)
  obtain ⟨A', b', h1', h3⟩ := C98_ritz S hI poisson _ _ _ _ (fun l p a => p.shape.t1 l a)
    (fun _ : Fin 1 => (fun p a => p.shape.t0 a, fun _ _ => (1:ℝ))) hK hk hr hist pw w
  rw [h1] at h1'
  cases h1'
  have hpot : ∀ v, potential (ds.map Direction.ax) 1 elt (fun l p a => p.shape.t1 l a) (fun _ => 1)
      (fun _ : Fin 1 => (fun p a => p.shape.t0 a, fun _ _ => (1:ℝ))) (fun _ => 1) v = 2 * dirichletEnergy (ds.map Direction.ax) elt v := by
    intro v
    have hl0 : work (ds.map Direction.ax) 1 (loads (ds.map Direction.ax) 1 elt) v = 0 := by
      refine List.sum_eq_zero fun x hx => ?_
      obtain ⟨z, hz, rfl⟩ := List.mem_map.1 hx
      refine List.sum_eq_zero fun x hx => ?_
      obtain ⟨i, hi, rfl⟩ := List.mem_map.1 hx
      rw [no_loads hw' hI.built (poisson_noLoads _) z i (List.mem_range.1 hi), zero_mul]
    unfold potential
    rw [hl0, mul_zero, sub_zero]
    unfold energy squares dataWork dirichletEnergy
    rw [← List.sum_map_mul_left, ← List.sum_map_mul_left, ← list_sum_sub]
    congr 1; refine List.map_congr_left fun e _ => ?_
    rw [← List.sum_map_mul_left, ← List.sum_map_mul_left, ← list_sum_sub]
    congr 1; refine List.map_congr_left fun q _ => ?_
    simp
    ring
  refine ⟨A, b, h1, h2, x, fun y => ⟨hu y, fun h i hi => ?_⟩, fun z hz hp => ?_, fun v hv => ?_⟩
  · rw [← hx i hi]
    exact Finset.sum_congr rfl fun j hj => by rw [h j (Finset.mem_range.1 hj)]
  · obtain ⟨v, hv⟩ := Option.isSome_iff_exists.1 hp
    have := ((hsol fun z i => x (Blk.unknown Ls (ds.map Direction.ax) 1 z i)).1 ((nodal_equations S hA hb x).1 hx)).1 z 0 hz (by omega) v hv
    exact this.trans (prescribed_value (fun a s k v h => poisson_value h) hv)
  · have h4 := (h3 x hx).2 v (fun z i hz hi v0 h => by
      obtain rfl : i = 0 := by omega
      rw [hv z hz (by rw [show ((0:Nat):Int) = 0 from rfl] at h; rw [h]; rfl)]
      exact (prescribed_value (fun a s k v h => poisson_value h) h).symm)
    rw [hpot, hpot] at h4
    have := energy_nonneg S hT hs hI (ρ := fun _ => (1:ℝ)) ⟨hJ, fun _ _ _ _ => one_pos⟩ (fun l : Fin ds.length => (fun p a => p.shape.t1 l a, fun _ _ => (0:ℝ)))
      (fun z i => v z i - x (Blk.unknown Ls (ds.map Direction.ax) 1 z i))
    linarith

/-- `∫ (v - f)²`, by the rule: how far the field `v` is from the function `f` of the position. -/
noncomputable def distance {d nsd : Nat} (axs : List (Axis ℝ)) (elt : List Int → Elt ℝ (PtData d nsd (nenOf axs))) (geometry : Bool)
    (f : Nat → (Nat → ℝ) → ℝ) (v : List Int → Nat → ℝ) : ℝ :=
  ((indices (axs.map Axis.nel)).map fun e => (((elt e).points none).map fun q =>
    (combine axs e q.data.shape.t0 v 0 - f d (position geometry q.data)) ^ 2 * (q.detJac * q.weight)).sum).sum

/-- **C102**, demo/L2Projection.c: for every function, geometry (positive Jacobian) and NURBS (positive weights), the matrix is symmetric positive
definite, the system has exactly one solution, and no other field of the space is closer to the function. -/
theorem C102_project {g2 : Guess2} {g3 : Guess3} {size procs axes} {ds : List (Direction Line)} {Ls}
    (S : Setup g2 g3 false size procs axes (ds.map Direction.ax) Ls)
    (hT : ∀ δ ∈ ds, δ.Tabulated) (hs : ∀ δ ∈ ds, IsSpline δ) (hE : ∀ δ ∈ ds, Enough δ) {nsd : Nat}
    {c : List Int → PtIn ds.length nsd (Fin (nenOf (ds.map Direction.ax)))} (hR : ∀ e, Weights ds (c e))
    {elt : List Int → Elt ℝ (PtData ds.length nsd (nenOf (ds.map Direction.ax)))} (hI : Assembled ds [] 1 none c elt)
    (hJ : ∀ e, InBox (ds.map fun δ => δ.ax.nel) e → ∀ q ∈ (elt e).points none, 0 < q.detJac) (geometry : Bool) (f : Nat → (Nat → ℝ) → ℝ) (hist) (pw) (w) :
    ∃ A b, computeSystem Ls hist 1 ⟨elt, pw, w⟩ (project geometry f) = .ok (A, b) ∧ PosDef (total (ds.map Direction.ax) 1) (fun i j => A (i, j)) ∧
      ∃ x : Int → ℝ,
        (∀ y : Int → ℝ,
          (∀ i : Nat, i < total (ds.map Direction.ax) 1 → ∑ j ∈ Finset.range (total (ds.map Direction.ax) 1), A ((i:Int), (j:Int)) * y j = b i) ↔
          ∀ i : Nat, i < total (ds.map Direction.ax) 1 → y i = x i) ∧
        ∀ v : List Int → Nat → ℝ, distance (ds.map Direction.ax) elt geometry f (fun z i => x (Blk.unknown Ls (ds.map Direction.ax) 1 z i)) ≤
          distance (ds.map Direction.ax) elt geometry f v := by
  have hK := fills (P := PtData ds.length nsd (nenOf (ds.map Direction.ax))) (unknowns_one (ds.map Direction.ax)) (project geometry f)
    (fun p a b => p.shape.t0 a * p.shape.t0 b) (fun p a => p.shape.t0 a * f ds.length (position geometry p)) (fun _ _ _ => rfl)
  have hk := gramForm (P := PtData ds.length nsd (nenOf (ds.map Direction.ax))) (List.ofFn fun (_ : Fin 1) p a => p.shape.t0 a)
    (fun p a b => p.shape.t0 a * p.shape.t0 b) (fun p a b => by simp)
  have hr := loadForm (P := PtData ds.length nsd (nenOf (ds.map Direction.ax)))
    (List.ofFn fun (_ : Fin 1) => (fun p a => p.shape.t0 a, fun p _ => f ds.length (position geometry p)))
    (fun p a => p.shape.t0 a * f ds.length (position geometry p)) (fun p a => by simp)
  obtain ⟨A, b, h1, h2⟩ := C87_system S hT hs hE hR hI hJ (project geometry f) _ _ _ _ hK hk (List.mem_ofFn.2 ⟨0, rfl⟩) (fun _ _ _ _ => one_pos) hist pw w
  obtain ⟨A', b', h1', h3⟩ := C98_least S hT hs noLoads_nil hI (project geometry f) _ _ _ ⟨hJ, fun _ _ _ _ => one_pos⟩
    (fun (_ : Fin 1) => (fun p a => p.shape.t0 a, fun p _ => f ds.length (position geometry p))) hK hk hr hist pw w
  rw [h1] at h1'
  cases h1'
  have hm : ∀ v, misfit (ds.map Direction.ax) 1 elt (fun (_ : Fin 1) => (fun p a => p.shape.t0 a, fun p _ => f ds.length (position geometry p))) (fun _ => 1) v =
      distance (ds.map Direction.ax) elt geometry f v := by
    intro v
    unfold misfit squares distance
    simp
  obtain ⟨x, hx, hu⟩ := posDef_solve h2 b
  refine ⟨A, b, h1, h2, x, fun y => ⟨hu y, fun h i hi => ?_⟩, fun v => ?_⟩
  · rw [← hx i hi]
    exact Finset.sum_congr rfl fun j hj => by rw [h j (Finset.mem_range.1 hj)]
  · have := (h3 x hx).2 v (fun z i _ _ v0 h => by rw [prescribed_nil] at h; cases h)
    rwa [hm, hm] at this

theorem evalProd_cons (p : ℝ[X]) (P : List ℝ[X]) (x : ℝ) (xs : List ℝ) : evalProd (p :: P) (x :: xs) = p.eval x * evalProd P xs := by
  simp [evalProd]

theorem evalProd_one : ∀ (n : Nat) (xs : List ℝ), xs.length = n → evalProd (List.replicate n (1 : ℝ[X])) xs = 1
  | 0, [], _ => by simp [evalProd]
  | n + 1, x :: xs, h => by
    rw [List.replicate_succ, evalProd_cons, evalProd_one n xs (by simpa using h)]
    simp

theorem evalProd_at (m : Nat) : ∀ (n i : Nat) (xs : List ℝ), xs.length = n → i < n →
    evalProd ((List.replicate n (1 : ℝ[X])).set i (X ^ m)) xs = xs.getD i 0 ^ m
  | n + 1, 0, x :: xs, h, _ => by
    rw [List.replicate_succ, List.set_cons_zero, evalProd_cons, evalProd_one n xs (by simpa using h)]
    simp
  | n + 1, i + 1, x :: xs, h, hi => by
    rw [List.replicate_succ, List.set_cons_succ, evalProd_cons, evalProd_at m n i xs (by simpa using h) (by omega)]
    simp

theorem power_sum (m dim : Nat) (x : Nat → ℝ) : power m dim x = ((List.range dim).map fun i => x i ^ m).sum := by
  unfold power
  have : ∀ (l : List Nat) (s : ℝ), l.foldl (fun s i => s + x i ^ m) s = s + (l.map fun i => x i ^ m).sum := by
    intro l
    induction l with
    | nil => intro s; simp
    | cons i l ih => intro s; rw [List.foldl_cons, ih]; simp only [List.map_cons, List.sum_cons]; ring
  rw [this, zero_add]

theorem power_poly (m : Nat) (deg : List Nat) (h : ∀ d ∈ deg, m ≤ d) :
    PolyOn (fun xs => xs.length = deg.length) deg (fun xs => power m deg.length (fun i => if i < deg.length then xs.getD i 0 else 0)) := by
  refine ⟨(List.range deg.length).map fun i => (List.replicate deg.length (1 : ℝ[X])).set i (X ^ m), fun P hP => ?_, fun xs hx => ?_⟩
  · obtain ⟨i, hi, rfl⟩ := List.mem_map.1 hP
    rw [List.forall₂_iff_get]
    refine ⟨by simp, fun j h1 h2 => ?_⟩
    simp only [List.get_eq_getElem, List.getElem_set, List.getElem_replicate]
    split_ifs
    · rw [natDegree_X_pow]
      exact h _ (List.getElem_mem _)
    · simp
  · beta_reduce
    rw [power_sum, List.map_map]
    congr 1
    refine List.map_congr_left fun i hi => ?_
    have hi := List.mem_range.1 hi
    simp only [Function.comp_apply]
    rw [if_pos hi, evalProd_at m deg.length i xs hx hi]

/-- **C102**, demo/L2Projection.c without a geometry: the functions `Linear`, `Quadratic`, `Cubic` and `Quartic` (`m = 1, …, 4`) are reproduced exactly
if no degree is below `m` and no direction is periodic. -/
theorem C102_project_power {g2 : Guess2} {g3 : Guess3} {size procs axes} {ds : List (Direction Line)} {Ls}
    (S : Setup g2 g3 false size procs axes (ds.map Direction.ax) Ls)
    (hT : ∀ δ ∈ ds, δ.Tabulated) (hs : ∀ δ ∈ ds, IsSpline δ) (hE : ∀ δ ∈ ds, Enough δ) (hper : ∀ δ ∈ ds, δ.ax.periodic = false) {nsd : Nat}
    {c : List Int → PtIn ds.length nsd (Fin (nenOf (ds.map Direction.ax)))} (hR : ∀ e, (c e).rational = none)
    {elt : List Int → Elt ℝ (PtData ds.length nsd (nenOf (ds.map Direction.ax)))} (hI : Assembled ds [] 1 none c elt)
    (hJ : ∀ e, InBox (ds.map fun δ => δ.ax.nel) e → ∀ q ∈ (elt e).points none, 0 < q.detJac) (m : Nat) (hm : ∀ δ ∈ ds, (m:Int) ≤ δ.ax.p) (hist) (pw) (w) :
    ∃ A b, computeSystem Ls hist 1 ⟨elt, pw, w⟩ (project false (power m)) = .ok (A, b) ∧ ∃ x : Int → ℝ,
      (∀ y : Int → ℝ,
        (∀ i : Nat, i < total (ds.map Direction.ax) 1 → ∑ j ∈ Finset.range (total (ds.map Direction.ax) 1), A ((i:Int), (j:Int)) * y j = b i) ↔
        ∀ i : Nat, i < total (ds.map Direction.ax) 1 → y i = x i) ∧
      ∀ e, InBox (ds.map fun δ => δ.ax.nel) e → ∀ q ∈ (elt e).points none,
        combine (ds.map Direction.ax) e q.data.shape.t0 (fun z i => x (Blk.unknown Ls (ds.map Direction.ax) 1 z i)) 0 =
          ((List.range ds.length).map fun i => q.data.u.getD i 0 ^ m).sum := by
  have hK := fills (P := PtData ds.length nsd (nenOf (ds.map Direction.ax))) (unknowns_one (ds.map Direction.ax)) (project false (power m))
    (fun p a b => p.shape.t0 a * p.shape.t0 b) (fun p a => p.shape.t0 a * power m ds.length (position false p)) (fun _ _ _ => rfl)
  have hk := gramForm (P := PtData ds.length nsd (nenOf (ds.map Direction.ax))) [fun p a => p.shape.t0 a]
    (fun p a b => p.shape.t0 a * p.shape.t0 b) (fun p a b => by simp)
  have hr := loadForm (P := PtData ds.length nsd (nenOf (ds.map Direction.ax)))
    [(fun p a => p.shape.t0 a, fun p _ => power m ds.length (fun i => if i < ds.length then p.u.getD i 0 else 0))]
    (fun p a => p.shape.t0 a * power m ds.length (position false p)) (fun p a => by simp [position])
  have hg := power_poly m (ds.map fun δ => δ.ax.p.toNat) (fun d hd => by
    obtain ⟨δ, hδ, rfl⟩ := List.mem_map.1 hd
    have := hm δ hδ
    omega)
  simp only [List.length_map] at hg
  obtain ⟨A, b, h1, x, h2, h3⟩ := C98_l2 S hT hs hE hper hR hI (project false (power m)) _ _ _ ⟨hJ, fun _ _ _ _ => one_pos⟩
    (fun _ xs => power m ds.length (fun i => if i < ds.length then xs.getD i 0 else 0)) (fun _ => hg) hK hk hr hist pw w
  refine ⟨A, b, h1, x, h2, fun e he q hq => ?_⟩
  rw [h3 e he q hq 0 (by omega), power_sum]
  congr 1
  exact List.map_congr_left fun i hi => by rw [if_pos (List.mem_range.1 hi)]

/-- **C102**, demo/L2Projection.c with a geometry in a space of the same dimension, also NURBS: `Linear` is reproduced exactly, with the sums of the
coordinates of the control points as coefficients. -/
theorem C102_project_linear {g2 : Guess2} {g3 : Guess3} {size procs axes} {ds : List (Direction Line)} {Ls}
    (S : Setup g2 g3 false size procs axes (ds.map Direction.ax) Ls)
    (hT : ∀ δ ∈ ds, δ.Tabulated) (hs : ∀ δ ∈ ds, IsSpline δ) (hE : ∀ δ ∈ ds, Enough δ)
    {c : List Int → PtIn ds.length ds.length (Fin (nenOf (ds.map Direction.ax)))} (hR : ∀ e, Weights ds (c e))
    (X : List Int → Nat → ℝ) (hX : ∀ e, ∃ C, (c e).geometry = some C ∧ OnNet (ds.map Direction.ax) e C X)
    {elt : List Int → Elt ℝ (PtData ds.length ds.length (nenOf (ds.map Direction.ax)))} (hI : Assembled ds [] 1 none c elt)
    (hJ : ∀ e, InBox (ds.map fun δ => δ.ax.nel) e → ∀ q ∈ (elt e).points none, 0 < q.detJac) (hist) (pw) (w) :
    ∃ A b, computeSystem Ls hist 1 ⟨elt, pw, w⟩ (project true (power 1)) = .ok (A, b) ∧ ∃ x : Int → ℝ,
      (∀ y : Int → ℝ,
        (∀ i : Nat, i < total (ds.map Direction.ax) 1 → ∑ j ∈ Finset.range (total (ds.map Direction.ax) 1), A ((i:Int), (j:Int)) * y j = b i) ↔
        ∀ i : Nat, i < total (ds.map Direction.ax) 1 → y i = x i) ∧
      ∀ z, InBox ((ds.map Direction.ax).map Axis.nnp) z →
        x (Blk.unknown Ls (ds.map Direction.ax) 1 z 0) = ∑ l : Fin ds.length, X z l := by
  have hK := fills (P := PtData ds.length ds.length (nenOf (ds.map Direction.ax))) (unknowns_one (ds.map Direction.ax)) (project true (power 1))
    (fun p a b => p.shape.t0 a * p.shape.t0 b) (fun p a => p.shape.t0 a * power 1 ds.length (position true p)) (fun _ _ _ => rfl)
  have hk := gramForm (P := PtData ds.length ds.length (nenOf (ds.map Direction.ax))) [fun p a => p.shape.t0 a]
    (fun p a b => p.shape.t0 a * p.shape.t0 b) (fun p a b => by simp)
  have hr := loadForm (P := PtData ds.length ds.length (nenOf (ds.map Direction.ax)))
    [(fun p a => p.shape.t0 a, fun p i => (fun _ : Nat => (0:ℝ)) i + ∑ l, (fun (_ : Nat) (_ : Fin ds.length) => (1:ℝ)) i l * p.arrays.mapX.t0 l)]
    (fun p a => p.shape.t0 a * power 1 ds.length (position true p)) (fun p a => by
      rw [power_sum]
      simp only [List.map_cons, List.map_nil, List.sum_cons, List.sum_nil, add_zero, zero_add, one_mul, pow_one, position, if_true]
      congr 1
      rw [← List.sum_ofFn, List.ofFn_eq_map, ← List.map_coe_finRange_eq_range, List.map_map]
      congr 1
      refine List.map_congr_left fun i _ => ?_
      simp)
  obtain ⟨A, b, h1, x, h2, h3⟩ := C98_l2_affine S hT hs hE hR X hX hI (project true (power 1)) _ _ _ ⟨hJ, fun _ _ _ _ => one_pos⟩
    (fun _ => 0) (fun _ _ => 1) hK hk hr hist pw w
  refine ⟨A, b, h1, x, h2, fun z hz => ?_⟩
  have := h3 z 0 hz (by omega)
  simpa using this

end PetIGA.Demo
