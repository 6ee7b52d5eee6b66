import Verif.Model.Form
import Verif.Spec.Form
import Mathlib.Data.List.Nodup
import Mathlib.Data.List.Induction
import Batteries.Data.List.Perm
/-! Property theorems about the boundary condition tables (C30, C31). -/
set_option linter.unusedSectionVars false
namespace PetIGA.Form
open PetIGA.Spec

variable {V : Type}

/-- Search in a list after the store. -/
theorem put_spec {n : Nat} {l : List (Int × V)} (i : Int) (v : V) (hl : l.length < n ∨ i ∈ l.map Prod.fst)
    (hn : (l.map Prod.fst).Nodup) :
    ∃ l', put n l i v = .ok l' ∧ (l'.map Prod.fst).Nodup ∧ (∀ k, k ∈ l'.map Prod.fst ↔ k = i ∨ k ∈ l.map Prod.fst) ∧
      (∀ k, tableGet l' k = if k = i then some v else tableGet l k) ∧
      l'.length = (if i ∈ l.map Prod.fst then l.length else l.length + 1) := by
  induction l generalizing n with
  | nil =>
    have : 0 < n := by simpa using hl
    refine ⟨[(i, v)], ?_, by simp, by simp, ?_, by simp⟩
    · unfold put; simp [this]
    · intro k
      unfold tableGet
      by_cases h : k = i
      · subst h; simp
      · have : ¬ i = k := fun h' => h h'.symm
        simp [h, this]
  | cons p l ih =>
    obtain ⟨pk, pv⟩ := p
    simp only [List.map_cons, List.nodup_cons] at hn
    by_cases hp : pk = i
    · subst hp
      refine ⟨(pk, v) :: l, ?_, ?_, ?_, ?_, ?_⟩
      · unfold put; simp [List.findIdx_cons]
      · simpa using hn
      · intro k; simp
      · intro k
        unfold tableGet
        by_cases h : k = pk
        · subst h; simp
        · have : ¬ pk = k := fun h' => h h'.symm
          simp [h, this]
      · simp
    · have hip : ¬ i = pk := fun h => hp h.symm
      obtain ⟨l', e, a, b, c, d⟩ := ih (n := n - 1) (by
        rcases hl with hl | hl
        · left; simp at hl; omega
        · right; simp only [List.map_cons, List.mem_cons] at hl; exact hl.resolve_left hip) hn.2
      refine ⟨(pk, pv) :: l', ?_, ?_, ?_, ?_, ?_⟩
      · unfold put at e ⊢
        have hb : (pk == i) = false := by simpa using hp
        simp only [List.findIdx_cons, hb, cond_false, List.length_cons, Nat.add_right_cancel_iff] at e ⊢
        by_cases h1 : l.findIdx (fun p => p.1 == i) = l.length
        · rw [if_pos h1] at e ⊢
          by_cases h2 : l.findIdx (fun p => p.1 == i) < n - 1
          · rw [if_pos h2] at e
            rw [if_pos (by omega)]
            simp only [Res.ok.injEq] at e
            rw [← e]; rfl
          · rw [if_neg h2] at e; simp at e
        · rw [if_neg h1] at e ⊢
          simp only [Res.ok.injEq] at e
          rw [← e]; rfl
      · simp only [List.map_cons, List.nodup_cons]
        refine ⟨fun h => ?_, a⟩
        rcases (b pk).1 h with h | h
        · exact hp h
        · exact hn.1 h
      · intro k
        simp only [List.map_cons, List.mem_cons, b k]
        tauto
      · intro k
        have ck := c k
        unfold tableGet at ck ⊢
        by_cases h : k = pk
        · subst h
          simp [hp]
        · have : (pk == k) = false := by simpa using fun h' => h h'.symm
          simp only [List.find?_cons, this]
          exact ck
      · simp only [List.length_cons, List.map_cons, List.mem_cons, hip, false_or, d]
        split_ifs <;> rfl

/-- A legal table: distinct fields between 0 and 63, at most 64 of them. -/
structure TableOK (l : BC V) : Prop where
  distinct : (l.map Prod.fst).Nodup
  fields : ∀ c ∈ l.map Prod.fst, 0 ≤ c ∧ c < 64
  size : l.length ≤ 64

theorem tableOK_size {l : BC V} (h1 : (l.map Prod.fst).Nodup) (h2 : ∀ c ∈ l.map Prod.fst, 0 ≤ c ∧ c < 64) :
    l.length ≤ 64 := by
  have hs : l.map Prod.fst ⊆ (List.range 64).map (fun (k : Nat) => (k : Int)) := by
    intro c hc
    have := h2 c hc
    rw [List.mem_map]
    exact ⟨c.toNat, by rw [List.mem_range]; omega, by omega⟩
  have := (List.subperm_of_subset h1 hs).length_le
  simpa using this

theorem put_table {l : BC V} (h : TableOK l) {c : Int} (hc : 0 ≤ c ∧ c < 64) (v : V) :
    ∃ l', put cap l c v = .ok l' ∧ TableOK l' ∧ ∀ k, tableGet l' k = if k = c then some v else tableGet l k := by
  have hroom : l.length < cap ∨ c ∈ l.map Prod.fst := by
    by_cases hm : c ∈ l.map Prod.fst
    · exact .inr hm
    · left
      have hn : ((c :: l.map Prod.fst)).Nodup := List.nodup_cons.2 ⟨hm, h.distinct⟩
      have := tableOK_size (l := (c, v) :: l) (by simpa using hn) (by
        intro k hk
        simp only [List.map_cons, List.mem_cons] at hk
        rcases hk with rfl | hk
        · exact hc
        · exact h.fields k hk)
      simp at this
      unfold cap; omega
  obtain ⟨l', e, a, b, d, -⟩ := put_spec c v hroom h.distinct
  have hf : ∀ k ∈ l'.map Prod.fst, 0 ≤ k ∧ k < 64 := by
    intro k hk
    rcases (b k).1 hk with rfl | hk
    · exact hc
    · exact h.fields k hk
  exact ⟨l', e, ⟨a, hf, tableOK_size a hf⟩, d⟩

/-- All tables of a form are legal. -/
def FormOK (f : Form V) : Prop := ∀ a s, TableOK (f.value a s) ∧ TableOK (f.load a s)

theorem checkArg_ok {a m : Int} (h : 0 ≤ a ∧ a < m) : checkArg a m = .ok () := by
  unfold checkArg check
  rw [if_pos (by omega), Res.ok_bind, if_pos (by omega)]

theorem checkArg_err {a m : Int} (h : ¬ (0 ≤ a ∧ a < m)) : checkArg a m = .err .outOfRange := by
  unfold checkArg check
  by_cases h0 : a < 0
  · rw [if_neg (by omega)]; rfl
  · rw [if_pos (by omega), Res.ok_bind, if_neg (by omega)]

theorem check3 {a s c : Int} : (checkArg a 3 >>= fun _ => checkArg s 2 >>= fun _ => checkArg c 64) =
    if (0 ≤ a ∧ a < 3) ∧ (0 ≤ s ∧ s < 2) ∧ (0 ≤ c ∧ c < 64) then .ok () else .err .outOfRange := by
  by_cases h1 : 0 ≤ a ∧ a < 3
  · rw [checkArg_ok h1, Res.ok_bind]
    by_cases h2 : 0 ≤ s ∧ s < 2
    · rw [checkArg_ok h2, Res.ok_bind]
      by_cases h3 : 0 ≤ c ∧ c < 64
      · rw [checkArg_ok h3, if_pos ⟨h1, h2, h3⟩]
      · rw [checkArg_err h3, if_neg (by tauto)]
    · rw [checkArg_err h2, if_neg (by tauto)]; rfl
  · rw [checkArg_err h1, if_neg (by tauto)]; rfl

theorem check2 {a s : Int} : (checkArg a 3 >>= fun _ => checkArg s 2) =
    if (0 ≤ a ∧ a < 3) ∧ (0 ≤ s ∧ s < 2) then .ok () else .err .outOfRange := by
  by_cases h1 : 0 ≤ a ∧ a < 3
  · rw [checkArg_ok h1, Res.ok_bind]
    by_cases h2 : 0 ≤ s ∧ s < 2
    · rw [checkArg_ok h2, if_pos ⟨h1, h2⟩]
    · rw [checkArg_err h2, if_neg (by tauto)]
  · rw [checkArg_err h1, if_neg (by tauto)]; rfl

/-- The Dirichlet side of a history. -/
def valueEvents : List (Op V) → List (BCEvent V)
  | [] => []
  | .setValue a s c v :: os => valueEvents os ++ [.set a s c v]
  | .clear a s :: os => valueEvents os ++ [.clear a s]
  | _ :: os => valueEvents os

/-- The load side of a history. -/
def loadEvents : List (Op V) → List (BCEvent V)
  | [] => []
  | .setLoad a s c v :: os => loadEvents os ++ [.set a s c v]
  | .clear a s :: os => loadEvents os ++ [.clear a s]
  | _ :: os => loadEvents os

/-- The arguments of a call are in range. -/
def Op.legal : Op V → Prop
  | .setValue a s c _ => (0 ≤ a ∧ a < 3) ∧ (0 ≤ s ∧ s < 2) ∧ (0 ≤ c ∧ c < 64)
  | .setLoad a s c _ => (0 ≤ a ∧ a < 3) ∧ (0 ≤ s ∧ s < 2) ∧ (0 ≤ c ∧ c < 64)
  | .setForm a s _ => (0 ≤ a ∧ a < 3) ∧ (0 ≤ s ∧ s < 2)
  | .clear a s => (0 ≤ a ∧ a < 3) ∧ (0 ≤ s ∧ s < 2)

instance (o : Op V) : Decidable o.legal := by
  cases o <;> unfold Op.legal <;> infer_instance

theorem emptyOK : TableOK ([] : BC V) := ⟨by simp, by simp, by simp⟩

/-- What one call does. -/
theorem step_spec {f : Form V} (h : FormOK f) (o : Op V) :
    FormOK (step f o).2 ∧ (o.legal → (step f o).1 = .ok ()) ∧
    (¬ o.legal → (step f o).1 = .err .outOfRange ∧ (step f o).2 = f) ∧
    (∀ a s c, tableGet ((step f o).2.value a s) c = match o with
      | .setValue a' s' c' v => if o.legal ∧ a' = a ∧ s' = s ∧ c' = c then some v else tableGet (f.value a s) c
      | .clear a' s' => if o.legal ∧ a' = a ∧ s' = s then none else tableGet (f.value a s) c
      | _ => tableGet (f.value a s) c) ∧
    (∀ a s c, tableGet ((step f o).2.load a s) c = match o with
      | .setLoad a' s' c' v => if o.legal ∧ a' = a ∧ s' = s ∧ c' = c then some v else tableGet (f.load a s) c
      | .clear a' s' => if o.legal ∧ a' = a ∧ s' = s then none else tableGet (f.load a s) c
      | _ => tableGet (f.load a s) c) := by
  cases o with
  | setValue a s c v =>
    unfold step setValue
    dsimp only
    rw [check3]
    by_cases hl : (0 ≤ a ∧ a < 3) ∧ (0 ≤ s ∧ s < 2) ∧ (0 ≤ c ∧ c < 64)
    · rw [if_pos hl]
      dsimp only
      obtain ⟨l', e, hk, hg⟩ := put_table (h a s).1 hl.2.2 v
      rw [e]
      dsimp only
      refine ⟨?_, fun _ => rfl, fun hn => absurd hl hn, ?_, fun _ _ _ => rfl⟩
      · intro a' s'
        refine ⟨?_, (h a' s').2⟩
        dsimp only [upd2]
        split_ifs with h1
        · exact hk
        · exact (h a' s').1
      · intro a' s' c'
        dsimp only [upd2]
        by_cases h1 : a' = a ∧ s' = s
        · obtain ⟨rfl, rfl⟩ := h1
          rw [if_pos ⟨rfl, rfl⟩, hg]
          by_cases h2 : c' = c
          · subst h2; rw [if_pos rfl, if_pos ⟨hl, rfl, rfl, rfl⟩]
          · rw [if_neg h2, if_neg (fun hh => h2 hh.2.2.2.symm)]
        · rw [if_neg h1, if_neg (fun hh => h1 ⟨hh.2.1.symm, hh.2.2.1.symm⟩)]
    · rw [if_neg hl]
      dsimp only
      refine ⟨h, fun hn => absurd hn hl, fun _ => ⟨rfl, rfl⟩, ?_, fun _ _ _ => rfl⟩
      intro a' s' c'
      rw [if_neg (fun hh => hl hh.1)]
  | setLoad a s c v =>
    unfold step setLoad
    dsimp only
    rw [check3]
    by_cases hl : (0 ≤ a ∧ a < 3) ∧ (0 ≤ s ∧ s < 2) ∧ (0 ≤ c ∧ c < 64)
    · rw [if_pos hl]
      dsimp only
      obtain ⟨l', e, hk, hg⟩ := put_table (h a s).2 hl.2.2 v
      rw [e]
      dsimp only
      refine ⟨?_, fun _ => rfl, fun hn => absurd hl hn, fun _ _ _ => rfl, ?_⟩
      · intro a' s'
        refine ⟨(h a' s').1, ?_⟩
        dsimp only [upd2]
        split_ifs with h1
        · exact hk
        · exact (h a' s').2
      · intro a' s' c'
        dsimp only [upd2]
        by_cases h1 : a' = a ∧ s' = s
        · obtain ⟨rfl, rfl⟩ := h1
          rw [if_pos ⟨rfl, rfl⟩, hg]
          by_cases h2 : c' = c
          · subst h2; rw [if_pos rfl, if_pos ⟨hl, rfl, rfl, rfl⟩]
          · rw [if_neg h2, if_neg (fun hh => h2 hh.2.2.2.symm)]
        · rw [if_neg h1, if_neg (fun hh => h1 ⟨hh.2.1.symm, hh.2.2.1.symm⟩)]
    · rw [if_neg hl]
      dsimp only
      refine ⟨h, fun hn => absurd hn hl, fun _ => ⟨rfl, rfl⟩, fun _ _ _ => rfl, ?_⟩
      intro a' s' c'
      rw [if_neg (fun hh => hl hh.1)]
  | setForm a s b =>
    unfold step setForm
    dsimp only
    rw [check2]
    by_cases hl : (0 ≤ a ∧ a < 3) ∧ (0 ≤ s ∧ s < 2)
    · rw [if_pos hl]
      exact ⟨h, fun _ => rfl, fun hn => absurd hl hn, fun _ _ _ => rfl, fun _ _ _ => rfl⟩
    · rw [if_neg hl]
      exact ⟨h, fun hn => absurd hn hl, fun _ => ⟨rfl, rfl⟩, fun _ _ _ => rfl, fun _ _ _ => rfl⟩
  | clear a s =>
    unfold step clear
    dsimp only
    rw [check2]
    by_cases hl : (0 ≤ a ∧ a < 3) ∧ (0 ≤ s ∧ s < 2)
    · rw [if_pos hl]
      dsimp only
      refine ⟨?_, fun _ => rfl, fun hn => absurd hl hn, ?_, ?_⟩
      · intro a' s'
        dsimp only [upd2]
        split_ifs
        · exact ⟨emptyOK, emptyOK⟩
        · exact h a' s'
      all_goals
        intro a' s' c'
        dsimp only [upd2]
        by_cases h1 : a' = a ∧ s' = s
        · rw [if_pos h1, if_pos ⟨hl, h1.1.symm, h1.2.symm⟩]; rfl
        · rw [if_neg h1, if_neg (fun hh => h1 ⟨hh.2.1.symm, hh.2.2.symm⟩)]
    · rw [if_neg hl]
      dsimp only
      refine ⟨h, fun hn => absurd hn hl, fun _ => ⟨rfl, rfl⟩, ?_, ?_⟩
      all_goals
        intro a' s' c'
        rw [if_neg (fun hh => hl hh.1)]

theorem run_append (f : Form V) (os : List (Op V)) (o : Op V) : run f (os ++ [o]) = (step (run f os) o).2 := by
  unfold run; rw [List.foldl_append]; rfl

theorem valueEvents_append (os : List (Op V)) (o : Op V) : valueEvents (os ++ [o]) = valueEvents [o] ++ valueEvents os := by
  induction os with
  | nil => simp [valueEvents]
  | cons p os ih => cases p <;> simp [valueEvents, ih]

theorem loadEvents_append (os : List (Op V)) (o : Op V) : loadEvents (os ++ [o]) = loadEvents [o] ++ loadEvents os := by
  induction os with
  | nil => simp [loadEvents]
  | cons p os ih => cases p <;> simp [loadEvents, ih]

/-- **C30.**  After any history of calls on a fresh form the condition stored for a triple is the one in force
according to the history, and the tables are legal (distinct fields, never more than 64 entries). -/
theorem C30_last_setting_wins (ops : List (Op V)) :
    (∀ a s c, tableGet ((run create ops).value a s) c = inForce a s c (valueEvents ops)) ∧
    (∀ a s c, tableGet ((run create ops).load a s) c = inForce a s c (loadEvents ops)) ∧
    FormOK (run create ops) := by
  induction ops using List.reverseRecOn with
  | nil => exact ⟨fun _ _ _ => rfl, fun _ _ _ => rfl, fun _ _ => ⟨emptyOK, emptyOK⟩⟩
  | append_singleton os o ih =>
    obtain ⟨h1, h2, h3⟩ := ih
    obtain ⟨k1, -, -, k4, k5⟩ := step_spec h3 o
    rw [run_append]
    refine ⟨?_, ?_, k1⟩
    · intro a s c
      rw [k4 a s c, valueEvents_append]
      cases o <;> simp only [valueEvents, List.nil_append, List.cons_append, inForce, h1 a s c, Op.legal, BCEvent.legal] <;> congr
    · intro a s c
      rw [k5 a s c, loadEvents_append]
      cases o <;> simp only [loadEvents, List.nil_append, List.cons_append, inForce, h2 a s c, Op.legal, BCEvent.legal] <;> congr

/-- **C30**, acceptance: after any history, a call succeeds exactly when its arguments are in range; otherwise it
reports an error and changes nothing.  In particular no call ever stores outside a table. -/
theorem C30_rejects_without_change (ops : List (Op V)) (o : Op V) :
    (o.legal → (step (run create ops) o).1 = .ok ()) ∧
    (¬ o.legal → (step (run create ops) o).1 = .err .outOfRange ∧ (step (run create ops) o).2 = run create ops) := by
  have h := step_spec (C30_last_setting_wins ops).2.2 o
  exact ⟨h.2.1, h.2.2.1⟩

/-- **C30** through the IGA object: the additional checks against its dimension and number of fields reject without
change, and otherwise the call is the one on the form. -/
theorem C30_iga_level (dim dof : Int) (f : Form V) (a s c : Int) (v : V) :
    (((0 < dim ∧ ¬ (0 ≤ a ∧ a < dim)) ∨ (0 < dof ∧ ¬ (0 ≤ c ∧ c < dof))) →
      igaStep dim dof f (.setValue a s c v) = (.err .outOfRange, f) ∧
      igaStep dim dof f (.setLoad a s c v) = (.err .outOfRange, f)) ∧
    (¬ ((0 < dim ∧ ¬ (0 ≤ a ∧ a < dim)) ∨ (0 < dof ∧ ¬ (0 ≤ c ∧ c < dof))) →
      igaStep dim dof f (.setValue a s c v) = step f (.setValue a s c v) ∧
      igaStep dim dof f (.setLoad a s c v) = step f (.setLoad a s c v)) := by
  constructor
  · intro h
    unfold igaStep
    by_cases h1 : dim > 0 ∧ ¬ (0 ≤ a ∧ a < dim)
    · simp only [if_pos h1, and_self]
    · have h2 : dof > 0 ∧ ¬ (0 ≤ c ∧ c < dof) := h.resolve_left h1
      simp only [if_neg h1, if_pos h2, and_self]
  · intro h
    have h1 : ¬ (dim > 0 ∧ ¬ (0 ≤ a ∧ a < dim)) := fun hh => h (.inl hh)
    have h2 : ¬ (dof > 0 ∧ ¬ (0 ≤ c ∧ c < dof)) := fun hh => h (.inr hh)
    unfold igaStep step
    simp only [if_neg h1, if_neg h2, and_self]

/-- A history with an overwrite, an illegal call, a clear and a later set. -/
example : let ops : List (Op Int) := [.setValue 0 0 0 5, .setValue 1 1 2 6, .setValue 0 0 0 7, .setValue 3 0 0 9,
      .setLoad 0 0 0 8, .clear 1 1, .setValue 1 1 3 4]
    tableGet ((run create ops).value 0 0) 0 = some 7 ∧ tableGet ((run create ops).value 1 1) 2 = none ∧
    tableGet ((run create ops).value 1 1) 3 = some 4 ∧ tableGet ((run create ops).load 0 0) 0 = some 8 := by
  decide +kernel

/-- The boundary form flags: set by the last legal `IGAFormSetBoundaryForm` or cleared. -/
theorem C30_visit_flags (f : Form V) (o : Op V) (a s : Int) : (step f o).2.visit a s = match o with
    | .setForm a' s' b => if o.legal ∧ a' = a ∧ s' = s then b else f.visit a s
    | .clear a' s' => if o.legal ∧ a' = a ∧ s' = s then false else f.visit a s
    | _ => f.visit a s := by
  cases o with
  | setValue a' s' c v =>
    unfold step setValue; dsimp only
    split
    · split <;> rfl
    · rfl
  | setLoad a' s' c v =>
    unfold step setLoad; dsimp only
    split
    · split <;> rfl
    · rfl
  | setForm a' s' b =>
    unfold step setForm
    dsimp only
    rw [check2]
    by_cases hl : (0 ≤ a' ∧ a' < 3) ∧ (0 ≤ s' ∧ s' < 2)
    · rw [if_pos hl]
      dsimp only [upd2]
      by_cases h1 : a = a' ∧ s = s'
      · rw [if_pos h1, if_pos ⟨hl, h1.1.symm, h1.2.symm⟩]
      · rw [if_neg h1, if_neg (fun hh => h1 ⟨hh.2.1.symm, hh.2.2.symm⟩)]
    · rw [if_neg hl]
      dsimp only
      rw [if_neg (fun hh => hl hh.1)]
  | clear a' s' =>
    unfold step clear
    dsimp only
    rw [check2]
    by_cases hl : (0 ≤ a' ∧ a' < 3) ∧ (0 ≤ s' ∧ s' < 2)
    · rw [if_pos hl]
      dsimp only [upd2]
      by_cases h1 : a = a' ∧ s = s'
      · rw [if_pos h1, if_pos ⟨hl, h1.1.symm, h1.2.symm⟩]
      · rw [if_neg h1, if_neg (fun hh => h1 ⟨hh.2.1.symm, hh.2.2.symm⟩)]
    · rw [if_neg hl]
      dsimp only
      rw [if_neg (fun hh => hl hh.1)]

/-- What the history says about the side `(axis, side)`, most recent call first: boundary elements of it are visited iff
the last legal `IGAFormSetBoundaryForm`/`IGAFormClearBoundary` for exactly this side was a setting to true. -/
def visitedSide (axis side : Int) : List (Op V) → Bool
  | [] => false
  | .setForm a s b :: os => if (0 ≤ a ∧ a < 3) ∧ (0 ≤ s ∧ s < 2) ∧ a = axis ∧ s = side then b else visitedSide axis side os
  | .clear a s :: os => if (0 ≤ a ∧ a < 3) ∧ (0 ≤ s ∧ s < 2) ∧ a = axis ∧ s = side then false else visitedSide axis side os
  | .setValue _ _ _ _ :: os => visitedSide axis side os
  | .setLoad _ _ _ _ :: os => visitedSide axis side os

/-- **C30, boundary forms**: after any history of calls on a fresh form a side is visited iff the last legal call that
concerns its flag switched it on; in particular a form on which no boundary form was ever requested visits no side. -/
theorem C30_visit (ops : List (Op V)) (a s : Int) : (run create ops).visit a s = visitedSide a s ops.reverse := by
  induction ops using List.reverseRecOn with
  | nil => rfl
  | append_singleton os o ih =>
    rw [run_append, C30_visit_flags, ih, List.reverse_append]
    cases o <;> simp only [List.reverse_cons, List.reverse_nil, List.nil_append, List.singleton_append, visitedSide, Op.legal,
      and_assoc]

/-- Two sides switched on, one of them cleared, one illegal request. -/
example : let ops : List (Op Int) := [.setForm 0 1 true, .setForm 1 0 true, .setValue 0 1 0 3, .clear 1 0, .setForm 3 0 true]
    (run create ops).visit 0 1 = true ∧ (run create ops).visit 1 0 = false ∧ (run create ops).visit 3 0 = false ∧
    (run create ops).visit 2 1 = false := by
  decide +kernel

/-! ### C31 -/

/-- **C31** is false: with `PetscInt` of at least 4 bytes, `PetscScalar` of at least 8, pointers of at most 16,
`PetscBool` of at most 8 bytes and less than 16 bytes of padding – every platform PETSc supports –
`IGAFormReset` writes past the end of the form. -/
theorem C31_reset_refuted (A : ABI) (hi : 4 ≤ A.int) (hs : 8 ≤ A.scalar) (hp : A.ptr ≤ 16) (hb : A.bool ≤ 8)
    (hpad : A.pad < 16) : reset A = .ub := by
  unfold reset memzero
  rw [if_neg]
  · rfl
  · unfold ABI.form ABI.offVisit ABI.offLoad ABI.bc
    omega

/-- **C31**, the second half is false too: even if the stray writes did no harm, the tables are lost, and setting any
boundary condition afterwards uses a null pointer. -/
theorem C31_reset_tables_lost_refuted (a s c : Int) (v : V) (ha : 0 ≤ a ∧ a < 3) (hs : 0 ≤ s ∧ s < 2)
    (hc : 0 ≤ c ∧ c < 64) : setValuePtr resetPtrs a s c v = .ub := by
  unfold setValuePtr
  rw [checkArg_ok ha, Res.ok_bind, checkArg_ok hs, Res.ok_bind, checkArg_ok hc, Res.ok_bind]
  rfl

/-- The usual 64-bit sizes: `PetscInt` 4 bytes, `double`, 8-byte pointers, 4-byte `PetscBool`. -/
example : reset ⟨4, 8, 8, 4, 24, 0⟩ = .ub := by decide

/-- What does empty a form: clearing the six sides. -/
theorem C31_clear_all_partial (f : Form V) (a s : Int) (ha : 0 ≤ a ∧ a < 3) (hs : 0 ≤ s ∧ s < 2) :
    let f' := run f [.clear 0 0, .clear 0 1, .clear 1 0, .clear 1 1, .clear 2 0, .clear 2 1]
    f'.value a s = [] ∧ f'.load a s = [] ∧ f'.visit a s = false := by
  have e : ∀ (g : Form V) (x y : Int), (0 ≤ x ∧ x < 3) → (0 ≤ y ∧ y < 2) → (step g (.clear x y)).2 =
      { g with value := upd2 g.value x y [], load := upd2 g.load x y [], visit := upd2 g.visit x y false } := by
    intro g x y hx hy
    unfold step clear
    dsimp only
    rw [check2, if_pos ⟨hx, hy⟩]
  unfold run
  simp only [List.foldl_cons, List.foldl_nil]
  rw [e _ 2 1 (by decide) (by decide), e _ 2 0 (by decide) (by decide), e _ 1 1 (by decide) (by decide),
    e _ 1 0 (by decide) (by decide), e _ 0 1 (by decide) (by decide), e _ 0 0 (by decide) (by decide)]
  obtain rfl | rfl | rfl : a = 0 ∨ a = 1 ∨ a = 2 := by omega
  all_goals
    obtain rfl | rfl : s = 0 ∨ s = 1 := by omega
    all_goals simp [upd2]

end PetIGA.Form
