import Verif.Props.SetUp
import Verif.Lemmas.Part
import Mathlib.Algebra.BigOperators.Group.List.Basic
/-
C57: which processor counts `IGASetProcessors` accepts, after any history of calls.
-/
set_option linter.unusedSectionVars false
namespace PetIGA.SetUp
open PetIGA.Part PetIGA.Ax PetIGA.Quad PetIGA.Rule

variable {K V : Type} [Field K] [LinearOrder K] [IsStrictOrderedRing K]

/-- The product of the counts of a processor grid that have been fixed; the others are −1. -/
def fixedProduct (p : List Int) : Int := (p.filter fun x => 1 ≤ x).prod

theorem fixedProduct_cons (a : Int) (l : List Int) : fixedProduct (a :: l) = (if 1 ≤ a then a else 1) * fixedProduct l := by
  unfold fixedProduct
  by_cases h : 1 ≤ a
  · rw [List.filter_cons_of_pos (by simpa using h), List.prod_cons, if_pos h]
  · rw [List.filter_cons_of_neg (by simpa using h), if_neg h, one_mul]

theorem fixedProduct_foldl (l : List Int) : ∀ a : Int, l.foldl (fun a x => if x > 0 then a * x else a) a = a * fixedProduct l := by
  induction l with
  | nil => intro a; simp [fixedProduct]
  | cons x l ih =>
    intro a
    rw [List.foldl_cons, ih, fixedProduct_cons]
    by_cases h : x > 0
    · rw [if_pos h, if_pos (by omega), mul_assoc]
    · rw [if_neg h, if_neg (by omega), one_mul]

theorem fixedProduct_pos (l : List Int) : 1 ≤ fixedProduct l := by
  induction l with
  | nil => simp [fixedProduct]
  | cons x l ih =>
    rw [fixedProduct_cons]
    split_ifs with h
    · nlinarith
    · omega

theorem fixedProduct_take (l : List Int) : ∀ k : Nat, fixedProduct (l.take k) ∣ fixedProduct l := by
  induction l with
  | nil => intro k; simp
  | cons x l ih =>
    intro k
    cases k with
    | zero => exact ⟨fixedProduct (x :: l), by simp [fixedProduct]⟩
    | succ k => rw [List.take_succ_cons, fixedProduct_cons, fixedProduct_cons]; exact mul_dvd_mul_left _ (ih k)

theorem fixedProduct_grid (l : List Int) (h : ∀ a ∈ l, 1 ≤ a) (m : Nat) : fixedProduct (l ++ List.replicate m 1) = Spec.prod l := by
  induction l with
  | nil =>
    show fixedProduct (List.replicate m 1) = 1
    induction m with
    | zero => simp [fixedProduct]
    | succ m ih => rw [List.replicate_succ, fixedProduct_cons, ih]; rfl
  | cons x l ih =>
    rw [List.cons_append, fixedProduct_cons, ih fun a ha => h a (by simp [ha]), if_pos (h x (by simp))]
    rfl

theorem fixedProduct_set (n : Int) (hn : 1 ≤ n) (l : List Int) : ∀ k : Nat, k < l.length → n ∣ fixedProduct (l.set k n) := by
  induction l with
  | nil => intro k hk; simp at hk
  | cons x l ih =>
    intro k hk
    cases k with
    | zero => rw [List.set_cons_zero, fixedProduct_cons, if_pos hn]; exact dvd_mul_right _ _
    | succ k => rw [List.set_cons_succ, fixedProduct_cons]; exact Dvd.dvd.mul_left (ih k (by simpa using hk)) _

/-- The number of directions of the object, 3 as long as the dimension is not set. -/
def directions (s : IGA K V) : Nat := if s.dim > 0 then s.dim.toNat else 3

/-- The processor grid has three entries, and what is fixed divides the number of processes. -/
structure ProcsOK (W : World K V) (s : IGA K V) : Prop where
  len : s.procs.length = 3
  dvd : fixedProduct (s.procs.take (directions s)) ∣ W.size
  dim : s.dim ≤ 3

theorem stage1_procs (W : World K V) (s : IGA K V) (h : ProcsOK W s) (hd : ¬ s.dim < 1) : ProcsOK W (stage1 W s).2 := by
  unfold stage1
  split_ifs with hs
  · exact h
  · dsimp only
    cases hL : Lay.stage1 W.g2 W.g3 s.colloc W.size W.rank (s.procs.take s.dim.toNat) (s.axes.take s.dim.toNat) with
    | err e => exact ⟨h.len, h.dvd, h.dim⟩
    | ub => exact ⟨h.len, h.dvd, h.dim⟩
    | ok L =>
      unfold Lay.stage1 at hL
      simp only [Res.bind_eq_ok] at hL
      obtain ⟨axes, -, ⟨n', i⟩, hp, ws, -, ds, -, hL⟩ := hL
      simp only [Res.ok.injEq] at hL
      subst hL
      obtain ⟨-, -, -, p1, p2, p3, -, -⟩ := partition_ok hp
      have hl := p3.length_eq
      have hdim := h.dim
      have h3 := h.len
      rw [List.length_take] at hl
      refine ⟨?_, ?_, h.dim⟩
      · show (n' ++ List.replicate (3 - s.dim.toNat) 1).length = 3
        rw [List.length_append, List.length_replicate]
        omega
      · refine (fixedProduct_take _ _).trans ?_
        show fixedProduct (n' ++ List.replicate (3 - s.dim.toNat) 1) ∣ W.size
        rw [fixedProduct_grid n' p2, p1]

theorem setProcessors_iff (W : World K V) (s : IGA K V) (h : ProcsOK W s) (i n : Int) :
    ((setProcessors W s i n).1 = .ok () ↔
      s.setup = false ∧ (0 ≤ i ∧ i < directions s) ∧ 1 ≤ n ∧ fixedProduct ((s.procs.take (directions s)).set i.toNat n) ∣ W.size) ∧
    ((setProcessors W s i n).1 = .ok () → (setProcessors W s i n).2 = { s with procs := s.procs.set i.toNat n }) ∧
    ((setProcessors W s i n).1 ≠ .ok () → (setProcessors W s i n).2 = s) := by
  have hD : directions s ≤ 3 := by have := h.dim; unfold directions; split_ifs <;> omega
  have hle := h.len
  have hdir : ((directions s : Nat) : Int) = (if s.dim > 0 then s.dim else 3) := by unfold directions; split_ifs <;> omega
  unfold setProcessors checkDir
  by_cases h0 : s.setup = true
  · rw [if_pos h0]; simp [h0]
  rw [if_neg h0]
  have h0' : s.setup = false := by simpa using h0
  by_cases h1 : i < 0
  · rw [if_pos h1]; simp; omega
  rw [if_neg h1]
  by_cases h2 : i ≥ (if s.dim > 0 then s.dim else 3)
  · rw [if_pos h2]; simp; omega
  rw [if_neg h2]
  simp only
  by_cases h3 : n < 1
  · rw [if_pos h3]; simp; omega
  rw [if_neg h3]
  have hk : i.toNat < (s.procs.take (directions s)).length := by rw [List.length_take]; omega
  have e : procProd s.procs (if s.dim > 0 then s.dim else 3).toNat i.toNat n = fixedProduct ((s.procs.take (directions s)).set i.toNat n) := by
    unfold procProd
    rw [fixedProduct_foldl, one_mul, ← hdir, Int.toNat_natCast, List.take_set]
  by_cases h4 : Int.tmod W.size n ≠ 0
  · rw [if_pos h4]
    refine ⟨⟨by simp, fun hh => absurd ?_ h4⟩, by simp, by simp⟩
    exact Int.tmod_eq_zero_of_dvd ((fixedProduct_set n (by omega) _ _ hk).trans hh.2.2.2)
  rw [if_neg h4, e]
  by_cases h5 : Int.tmod W.size (fixedProduct ((s.procs.take (directions s)).set i.toNat n)) ≠ 0
  · rw [if_pos h5]
    exact ⟨⟨by simp, fun hh => absurd (Int.tmod_eq_zero_of_dvd hh.2.2.2) h5⟩, by simp, by simp⟩
  · rw [if_neg h5]
    refine ⟨⟨fun _ => ⟨h0', ⟨by omega, by omega⟩, by omega, Int.dvd_of_tmod_eq_zero (not_not.1 h5)⟩, fun _ => rfl⟩, fun _ => rfl, by simp⟩

theorem procsOK_step (W : World K V) (s : IGA K V) (o : Op K V) (h : ProcsOK W s) : ProcsOK W (step W s o).2 := by
  have same : ∀ t : IGA K V, t.procs = s.procs → t.dim = s.dim → ProcsOK W t := fun t e1 e2 =>
    ⟨by rw [e1]; exact h.len, by unfold directions; rw [e1, e2]; exact h.dvd, by rw [e2]; exact h.dim⟩
  by_cases hr : IsRuleOp o
  · obtain ⟨b, rs, e, _⟩ := ruleOp_frame W s o hr
    rw [e]; exact same _ rfl rfl
  cases o with
  | setDim d =>
    simp only [step, setDim]
    split_ifs with h1 h2
    · exact h
    · exact h
    · refine ⟨h.len, ?_, by show d ≤ 3; omega⟩
      have e : directions ({ s with dim := d } : IGA K V) = d.toNat := by unfold directions; rw [if_pos (by show d > 0; omega)]
      rw [e]
      show fixedProduct (s.procs.take d.toNat) ∣ W.size
      by_cases hs : s.dim > 0
      · have : d = s.dim := by omega
        rw [this]
        have := h.dvd
        unfold directions at this
        rwa [if_pos hs] at this
      · have h3 := h.dvd
        unfold directions at h3
        rw [if_neg hs] at h3
        have e3 : s.procs.take d.toNat = (s.procs.take 3).take d.toNat := by rw [List.take_take, Nat.min_eq_left (by omega)]
        rw [e3]
        exact (fixedProduct_take _ _).trans h3
  | setDof n => simp only [step, setDof]; split_ifs <;> exact same _ rfl rfl
  | setOrder k => simp only [step, setOrder]; split_ifs <;> exact same _ rfl rfl
  | setBasisType i t =>
    simp only [step, setBasisType]
    split_ifs
    · exact h
    · cases checkDir s i <;> simp only
      · split_ifs <;> exact same _ rfl rfl
      all_goals exact h
  | setRuleType i t => exact absurd trivial hr
  | setRuleSize i q => exact absurd trivial hr
  | setQuadrature i q => exact absurd trivial hr
  | setProcessors i n =>
    simp only [step]
    obtain ⟨h1, h2, h3⟩ := setProcessors_iff W s h i n
    by_cases hok : (setProcessors W s i n).1 = .ok ()
    · rw [h2 hok]
      refine ⟨by simp [h.len], ?_, h.dim⟩
      show fixedProduct ((s.procs.set i.toNat n).take (directions s)) ∣ W.size
      rw [List.take_set]
      exact (h1.1 hok).2.2.2
    · rw [h3 hok]; exact h
  | setCollocation b => simp only [step, setCollocation]; split_ifs <;> exact same _ rfl rfl
  | axis i f =>
    simp only [step, axisCall]
    cases checkDir s i <;> simp only
    · rename_i kk; cases s.axes[kk]? <;> exact same _ rfl rfl
    all_goals exact h
  | setGeo g fx =>
    simp only [step, setGeo]
    cases s.layout <;> simp only
    · exact h
    · split_ifs <;> exact same _ rfl rfl
  | setUp =>
    simp only [step]
    by_cases hs : s.setup = true
    · simp only [setUp, hs, if_true]; exact h
    · have hs : s.setup = false := by simpa using hs
      by_cases hd : s.dim < 1
      · simp only [setUp, hs, hd, if_true]; exact h
      · have h1 : ProcsOK W (stage1 W { s with setup := true }).2 := stage1_procs W _ (same _ rfl rfl) hd
        rcases setUp_cases W s hs hd with ⟨_, h2⟩ | ⟨_, h2⟩
        · rw [h2]
          have e1 : ∀ t : IGA K V, (stage3 W (stage2 t).2).2.procs = t.procs := fun t =>
            (stage3_frame W _).procs.trans (stage2_frame t).2.2.2.2.2.2.2.2.2.2.1
          have e2 : ∀ t : IGA K V, (stage3 W (stage2 t).2).2.dim = t.dim := fun t => (stage3_frame W _).dim.trans (stage2_frame t).2.1
          exact ⟨by rw [e1]; exact h1.len, by unfold directions; rw [e1, e2]; exact h1.dvd, by rw [e2]; exact h1.dim⟩
        · rw [h2]; exact h1
  | reset => exact same _ rfl rfl

theorem procsOK_run (W : World K V) (ops : List (Op K V)) : ProcsOK W (run W (create W) ops) := by
  induction ops using List.reverseRecOn with
  | nil => exact ⟨rfl, by simp [directions, run, create, fixedProduct, List.replicate], by show (-1:Int) ≤ 3; omega⟩
  | append_singleton os o ih =>
    have : run W (create W) (os ++ [o]) = (step W (run W (create W) os) o).2 := by simp [run]
    rw [this]
    exact procsOK_step W _ o ih

/-- **C57, processor counts.**  After any history of calls on an IGA object (failed ones included), the counts fixed so far multiply to a divisor of
the number of processes, and `IGASetProcessors(i,n)` succeeds exactly when the object is not set up, `i` is a direction (of 3 as long as the
dimension is open), `n` is positive and the product of `n` and the counts fixed for the other directions divides the number of processes.  Success
records `n`, failure leaves the object as it was. -/
theorem C57_processors (W : World K V) (ops : List (Op K V)) (i n : Int) :
    fixedProduct ((run W (create W) ops).procs.take (directions (run W (create W) ops))) ∣ W.size ∧
    ((setProcessors W (run W (create W) ops) i n).1 = .ok () ↔
      (run W (create W) ops).setup = false ∧ (0 ≤ i ∧ i < directions (run W (create W) ops)) ∧ 1 ≤ n ∧
        fixedProduct (((run W (create W) ops).procs.take (directions (run W (create W) ops))).set i.toNat n) ∣ W.size) ∧
    ((setProcessors W (run W (create W) ops) i n).1 = .ok () →
      (setProcessors W (run W (create W) ops) i n).2 = { run W (create W) ops with procs := (run W (create W) ops).procs.set i.toNat n }) ∧
    ((setProcessors W (run W (create W) ops) i n).1 ≠ .ok () → (setProcessors W (run W (create W) ops) i n).2 = run W (create W) ops) :=
  ⟨(procsOK_run W ops).dvd, setProcessors_iff W _ (procsOK_run W ops) i n⟩

/-- With 12 processes and 2 in direction 0: 3 fits in direction 1, 4 does not. -/
example (W : World K V) (hW : W.size = 12) :
    (setProcessors W (run W (create W) [.setProcessors 0 2]) 1 3).1 = .ok () ∧ (setProcessors W (run W (create W) [.setProcessors 0 2]) 1 4).1 ≠ .ok () := by
  have e : run W (create W) [.setProcessors 0 2] = { create W with procs := [2, -1, -1] } := by
    have h := setProcessors_iff W (create W) (procsOK_run W []) 0 2
    have := h.2.1 (h.1.2 ⟨rfl, show (0:Int) ≤ 0 ∧ (0:Int) < ((3:Nat):Int) by decide, by decide, by rw [hW]; show fixedProduct [2, -1, -1] ∣ 12; decide⟩)
    exact this
  rw [e]
  have hp : ProcsOK W ({ create W with procs := [2, -1, -1] } : IGA K V) := e ▸ procsOK_run W [.setProcessors 0 2]
  refine ⟨(setProcessors_iff W _ hp 1 3).1.2 ⟨rfl, show (0:Int) ≤ 1 ∧ (1:Int) < ((3:Nat):Int) by decide, by decide, by rw [hW]; show fixedProduct [2, 3, -1] ∣ 12; decide⟩, fun h => ?_⟩
  have : fixedProduct [2, 4, -1] ∣ W.size := ((setProcessors_iff W _ hp 1 4).1.1 h).2.2.2
  rw [hW] at this
  revert this
  decide

end PetIGA.SetUp
