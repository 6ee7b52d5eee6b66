import Verif.Props.FixColloc
/-! Property theorems about residual and Jacobian rows of constrained unknowns with collocation (C66). -/
set_option linter.unusedSectionVars false
namespace PetIGA.Fix
open PetIGA.Form PetIGA.Grid PetIGA.Spec Finset

variable {V : Type}

theorem loop_vals (pos : Int → Int) (val : Int → V) (hinj : ∀ i j, pos i = pos j → i = j) (A : Int → V) (n : Nat) :
    (∀ i : Int, (0 ≤ i ∧ i < n) → loop n (fun i A => upd A (pos i) (val i)) A (pos i) = val i) ∧
    ∀ m, (∀ i : Int, (0 ≤ i ∧ i < n) → m ≠ pos i) → loop n (fun i A => upd A (pos i) (val i)) A m = A m := by
  induction n with
  | zero => exact ⟨fun i h => by omega, fun _ _ => rfl⟩
  | succ n ih =>
    rw [loop_succ]
    constructor
    · intro i hi
      unfold upd
      by_cases h : pos i = pos n
      · rw [if_pos h, hinj i n h]
      · rw [if_neg h]
        exact ih.1 i ⟨hi.1, by
          have : i ≠ n := fun e => h (by rw [e])
          push_cast at hi; omega⟩
    · intro m hm
      unfold upd
      rw [if_neg (hm n (by push_cast; omega))]
      exact ih.2 m fun i hi => hm i (by push_cast; omega)

theorem split_key {dof : Nat} {a f : Int} (ha : 0 ≤ a) (hf : 0 ≤ f ∧ f < dof) :
    Int.tdiv (a * dof + f) dof = a ∧ Int.tmod (a * dof + f) dof = f := by
  have h0 : 0 ≤ a * dof + f := by have := Int.mul_nonneg ha (Int.natCast_nonneg dof); omega
  rw [Int.tdiv_eq_ediv_of_nonneg h0, Int.tmod_eq_emod_of_nonneg h0]
  constructor
  · rw [Int.add_comm, Int.add_mul_ediv_right _ _ (by omega), Int.ediv_eq_zero_of_lt hf.1 hf.2, Int.zero_add]
  · rw [Int.add_comm, Int.add_mul_emod_self_right, Int.emod_eq_of_lt hf.1 hf.2]

/-- A key in range is `a*dof+f`. -/
theorem key_split {nen dof : Nat} {k : Int} (hk : 0 ≤ k ∧ k < (nen * dof : Nat)) :
    ∃ a f : Int, (0 ≤ a ∧ a < nen) ∧ (0 ≤ f ∧ f < dof) ∧ k = a * dof + f := by
  have hd : 0 < dof := by
    rcases Nat.eq_zero_or_pos dof with h | h
    · rw [h, Nat.mul_zero] at hk; omega
    · exact h
  refine ⟨k / dof, k % dof, ⟨Int.ediv_nonneg hk.1 (by omega), ?_⟩, ⟨Int.emod_nonneg _ (by omega), Int.emod_lt_of_pos _ (by omega)⟩,
    (Int.ediv_mul_add_emod k dof).symm⟩
  rw [Int.ediv_lt_iff_lt_mul (by omega)]
  have := hk.2
  push_cast at this
  exact this

/-- The node of the collocation point among the nodes of its element: `rowmap[0] == colmap[a]` holds for it alone. -/
structure OwnNode (nen : Nat) (row : Int) (colmap : Int → Int) (own : Int) : Prop where
  range : 0 ≤ own ∧ own < nen
  only : ∀ a : Int, (0 ≤ a ∧ a < nen) → (row = colmap a ↔ a = own)

/-- **C66**, residual: with collocation the residual of a point gets `U - v` in the field entries where its own node is
constrained and is unchanged elsewhere. -/
theorem C66_function [Sub V] {nen dof : Nat} {row : Int} {colmap : Int → Int} {own : Int} (ho : OwnNode nen row colmap own)
    (U : Int → V) : ∀ (fix : List (Int × V)), Good (nen * dof) fix → ∀ (F : Int → V) (f : Int), (0 ≤ f ∧ f < dof) →
    fixFunctionColloc dof row colmap (fix.map fun p => (p.1, p.2, U p.1)) F f =
      match tableGet fix (own * dof + f) with
      | some v => U (own * dof + f) - v
      | none => F f := by
  intro fix
  induction fix with
  | nil => intro _ F f _; rfl
  | cons p fix ih =>
    obtain ⟨k, v⟩ := p
    intro hg F f hf
    have hg' : Good (nen * dof) fix := ⟨(by have := hg.distinct; simp only [List.map_cons, List.nodup_cons] at this; exact this.2),
      fun i hi => hg.range i (by simp only [List.map_cons, List.mem_cons]; exact .inr hi)⟩
    have hk := hg.range k (by simp)
    have hkn : k ∉ fix.map Prod.fst := by have := hg.distinct; simp only [List.map_cons, List.nodup_cons] at this; exact this.1
    obtain ⟨a, g, ha, hgr, rfl⟩ := key_split hk
    obtain ⟨e1, e2⟩ := split_key ha.1 hgr
    unfold fixFunctionColloc at ih ⊢
    rw [List.map_cons, List.foldl_cons]
    dsimp only
    rw [e1, e2, ih hg' _ f hf]
    by_cases hao : a = own
    · subst hao
      rw [if_pos ((ho.only a ha).2 rfl)]
      by_cases hfg : f = g
      · subst hfg
        rw [tableGet_none.2 hkn]
        simp [tableGet, upd]
      · have hne : ¬ a * (dof:Int) + g = a * dof + f := fun h => hfg (key_inj hgr hf h).2.symm
        have hb : (a * (dof:Int) + g == a * dof + f) = false := by simpa using hne
        have ht : tableGet ((a * (dof:Int) + g, v) :: fix) (a * dof + f) = tableGet fix (a * dof + f) := by
          unfold tableGet; rw [List.find?_cons, hb]
        rw [ht]
        unfold upd
        rw [if_neg hfg]
    · rw [if_neg (fun h => hao ((ho.only a ha).1 h))]
      have hne : ¬ a * (dof:Int) + g = own * dof + f := fun h => hao (key_inj hgr hf h).1
      have hb : (a * (dof:Int) + g == own * dof + f) = false := by simpa using hne
      have ht : tableGet ((a * (dof:Int) + g, v) :: fix) (own * dof + f) = tableGet fix (own * dof + f) := by
        unfold tableGet; rw [List.find?_cons, hb]
      rw [ht]

theorem shapeRow [Zero V] {nen dof : Nat} (shape : Int → V) {f : Int} (hf : 0 ≤ f ∧ f < dof) (J : Int → V) (f' : Int)
    {a g : Int} (ha : 0 ≤ a ∧ a < nen) (hg : 0 ≤ g ∧ g < dof) :
    loop nen (fun i J => upd J (f * (nen * dof : Int) + i * dof + f) (shape i))
      (loop (nen * dof) (fun j J => upd J (f * (nen * dof : Int) + j) 0) J) (f' * (nen * dof : Int) + (a * dof + g)) =
      if f' = f then (if g = f then shape a else 0) else J (f' * (nen * dof : Int) + (a * dof + g)) := by
  have hkey : ∀ a : Int, (0 ≤ a ∧ a < nen) → ∀ g : Int, (0 ≤ g ∧ g < dof) → 0 ≤ a * dof + g ∧ a * dof + g < (nen * dof : Nat) :=
    fun a ha g hg => key_range ha hg
  obtain ⟨h1, h2⟩ := loop_vals (fun i => f * (nen * dof : Int) + i * dof + f) shape (by
      intro i j h
      have : i * (dof:Int) + f = j * dof + f := by linarith
      exact (key_inj hf hf this).1) (loop (nen * dof) (fun j J => upd J (f * (nen * dof : Int) + j) 0) J) nen
  obtain ⟨h3, h4⟩ := loop_vals (fun j => f * (nen * dof : Int) + j) (fun _ => (0 : V)) (by intro i j h; omega) J (nen * dof)
  have hrow : ∀ k k' : Int, (0 ≤ k ∧ k < (nen * dof : Nat)) → (0 ≤ k' ∧ k' < (nen * dof : Nat)) →
      f' * (nen * dof : Int) + k = f * (nen * dof : Int) + k' → f' = f ∧ k = k' := by
    intro k k' hk hk' h
    exact key_inj (dof := nen * dof) (a := f') (f := k) (a' := f) (f' := k') hk hk' (by push_cast; exact h)
  by_cases hff : f' = f
  · subst hff
    rw [if_pos rfl]
    by_cases hgf : g = f'
    · subst hgf
      rw [if_pos rfl, ← h1 a ha, ← Int.add_assoc]
    · rw [if_neg hgf, h2]
      · exact h3 _ (hkey a ha g hg)
      · intro i hi h
        have := (hrow _ (i * dof + f') (hkey a ha g hg) (hkey i hi f' hf) (by rw [h]; ring)).2
        exact hgf (key_inj hg hf this).2
  · rw [if_neg hff, h2, h4]
    · intro i hi h; exact hff (hrow _ _ (hkey a ha g hg) hi h).1
    · intro i hi h
      exact hff (hrow _ (i * dof + f) (hkey a ha g hg) (hkey i hi f hf) (by rw [h]; ring)).1

/-- **C66**, Jacobian: the rows of the constrained fields of the own node become the row of shape function values. -/
theorem C66_jacobian [Zero V] {nen dof : Nat} {row : Int} {colmap : Int → Int} {own : Int} (ho : OwnNode nen row colmap own)
    (shape : Int → V) : ∀ (fix : List (Int × V)), Good (nen * dof) fix → ∀ (J : Int → V) (f a g : Int), (0 ≤ f ∧ f < dof) →
    (0 ≤ a ∧ a < nen) → (0 ≤ g ∧ g < dof) →
    fixJacobianColloc nen dof row colmap shape fix J (f * (nen * dof : Int) + (a * dof + g)) =
      if (tableGet fix (own * dof + f)).isSome then (if g = f then shape a else 0)
      else J (f * (nen * dof : Int) + (a * dof + g)) := by
  intro fix
  induction fix with
  | nil => intro _ J f a g _ _ _; rfl
  | cons p fix ih =>
    obtain ⟨k, v⟩ := p
    intro hg J f a g hf ha hgr
    have hg' : Good (nen * dof) fix := ⟨(by have := hg.distinct; simp only [List.map_cons, List.nodup_cons] at this; exact this.2),
      fun i hi => hg.range i (by simp only [List.map_cons, List.mem_cons]; exact .inr hi)⟩
    have hk := hg.range k (by simp)
    obtain ⟨b, c, hb, hc, rfl⟩ := key_split hk
    obtain ⟨e1, e2⟩ := split_key hb.1 hc
    unfold fixJacobianColloc at ih ⊢
    rw [List.foldl_cons]
    dsimp only
    rw [e1, e2, ih hg' _ f a g hf ha hgr]
    by_cases hbo : b = own
    · subst hbo
      rw [if_pos ((ho.only b hb).2 rfl), shapeRow shape hc J f ha hgr]
      by_cases hfc : f = c
      · subst hfc
        have ht : tableGet ((b * (dof:Int) + f, v) :: fix) (b * dof + f) = some v := by simp [tableGet]
        rw [ht]
        simp only [Option.isSome_some, if_true, ite_self]
      · have hne : ¬ b * (dof:Int) + c = b * dof + f := fun h => hfc (key_inj hc hf h).2.symm
        have hbe : (b * (dof:Int) + c == b * dof + f) = false := by simpa using hne
        have ht : tableGet ((b * (dof:Int) + c, v) :: fix) (b * dof + f) = tableGet fix (b * dof + f) := by
          unfold tableGet; rw [List.find?_cons, hbe]
        rw [ht, if_neg hfc]
    · rw [if_neg (fun h => hbo ((ho.only b hb).1 h))]
      have hne : ¬ b * (dof:Int) + c = own * dof + f := fun h => hbo (key_inj hc hf h).1
      have hbe : (b * (dof:Int) + c == own * dof + f) = false := by simpa using hne
      have ht : tableGet ((b * (dof:Int) + c, v) :: fix) (own * dof + f) = tableGet fix (own * dof + f) := by
        unfold tableGet; rw [List.find?_cons, hbe]
      rw [ht]

/-- **C66**: the Jacobian row of a constrained field is the derivative of its residual entry (for all states `U` and
increments `d` the residual changes by the row times `d`) exactly if the shape functions at the point are 1 for its own node and 0 for the others,
that is, if the point interpolates its node. -/
theorem C66_consistent_iff {V : Type} [CommRing V] {nen dof : Nat} {row : Int} {colmap : Int → Int} {own : Int}
    (ho : OwnNode nen row colmap own) (shape : Int → V) (fix : List (Int × V)) (hg : Good (nen * dof) fix) (F J : Int → V) {f : Int}
    (hf : 0 ≤ f ∧ f < dof) {v : V} (hfix : tableGet fix (own * dof + f) = some v) :
    (∀ U d : Int → V,
      fixFunctionColloc dof row colmap (fix.map fun p => (p.1, p.2, U p.1 + d p.1)) F f -
        fixFunctionColloc dof row colmap (fix.map fun p => (p.1, p.2, U p.1)) F f =
      ∑ a ∈ range nen, ∑ g ∈ range dof,
        fixJacobianColloc nen dof row colmap shape fix J (f * (nen * dof : Int) + ((a : Int) * dof + g)) * d ((a : Int) * dof + g)) ↔
      ∀ a : Nat, a < nen → shape a = if (a : Int) = own then 1 else 0 := by
  have hres : ∀ U d : Int → V, fixFunctionColloc dof row colmap (fix.map fun p => (p.1, p.2, U p.1 + d p.1)) F f -
        fixFunctionColloc dof row colmap (fix.map fun p => (p.1, p.2, U p.1)) F f = d (own * dof + f) := by
    intro U d
    rw [C66_function ho (fun j => U j + d j) fix hg F f hf, C66_function ho U fix hg F f hf, hfix]
    ring
  have hjac : ∀ d : Int → V, (∑ a ∈ range nen, ∑ g ∈ range dof,
        fixJacobianColloc nen dof row colmap shape fix J (f * (nen * dof : Int) + ((a : Int) * dof + g)) * d ((a : Int) * dof + g)) =
      ∑ a ∈ range nen, shape a * d ((a : Int) * dof + f) := by
    intro d
    apply Finset.sum_congr rfl
    intro a ha
    have ha' := Finset.mem_range.1 ha
    rw [Finset.sum_eq_single f.toNat]
    · rw [C66_jacobian ho shape fix hg J f a f.toNat hf (by omega) (by omega), hfix, Int.toNat_of_nonneg hf.1]
      simp
    · intro g hgm hne
      have := Finset.mem_range.1 hgm
      rw [C66_jacobian ho shape fix hg J f a g hf (by omega) (by omega), hfix]
      have : ¬ (g : Int) = f := fun h => hne (by omega)
      simp [this]
    · intro h; exact absurd (Finset.mem_range.2 (by omega)) h
  constructor
  · intro h a ha
    have := (hres (fun _ => 0) (fun j => if j = (a : Int) * dof + f then 1 else 0)).symm.trans
      (h (fun _ => 0) (fun j => if j = (a : Int) * dof + f then 1 else 0))
    rw [hjac (fun j => if j = (a : Int) * dof + f then 1 else 0), Finset.sum_eq_single a] at this
    · rw [if_pos rfl, mul_one] at this
      rw [← this]
      by_cases hao : (a : Int) = own
      · rw [if_pos hao, if_pos (by rw [hao])]
      · rw [if_neg hao, if_neg (fun h => hao (key_inj hf hf h).1.symm)]
    · intro b _ hba
      rw [if_neg (fun h => hba (by have := (key_inj hf hf h).1; exact_mod_cast this)), mul_zero]
    · intro h; exact absurd (Finset.mem_range.2 ha) h
  · intro h U d
    rw [hres, hjac, Finset.sum_eq_single own.toNat]
    · have := h own.toNat (by have := ho.range; omega)
      rw [this, Int.toNat_of_nonneg ho.range.1, if_pos rfl, one_mul]
    · intro b hb hbo
      rw [h b (Finset.mem_range.1 hb), if_neg (fun e => hbo (by omega)), zero_mul]
    · intro hn; exact absurd (Finset.mem_range.2 (by have := ho.range; omega)) hn

/-- The point of a quadratic two-dimensional patch on the middle of the left side: 9 nodes, own node 3.  The shape functions
are the products of (1, 0, 0) and (1/8, 3/4, 1/8) (the uniform quadratic B-splines at the middle of an element). -/
def exShape : Int → Rat := fun a => if a = 0 then 1/8 else if a = 3 then 3/4 else if a = 6 then 1/8 else 0

/-- **C66** fails: on a side of a two-dimensional patch the Jacobian row of a constrained unknown is not the derivative of its
residual. -/
theorem C66_consistent_refuted :
    OwnNode 9 3 (fun a => a) 3 ∧ Good (9 * 1) [((3 : Int), (5 : Rat))] ∧
    ¬ ∀ U d : Int → Rat,
      fixFunctionColloc 1 3 (fun a => a) ([((3 : Int), (5 : Rat))].map fun p => (p.1, p.2, U p.1 + d p.1)) (fun _ => 0) 0 -
        fixFunctionColloc 1 3 (fun a => a) ([((3 : Int), (5 : Rat))].map fun p => (p.1, p.2, U p.1)) (fun _ => 0) 0 =
      ∑ a ∈ range 9, ∑ g ∈ range 1,
        fixJacobianColloc 9 1 3 (fun a => a) exShape [((3 : Int), (5 : Rat))] (fun _ => 0) (0 * (((9 : Nat) : Int) * ((1 : Nat) : Int)) + ((a : Int) * ((1 : Nat) : Int) + g)) *
          d ((a : Int) * ((1 : Nat) : Int) + g) := by
  have ho : OwnNode 9 3 (fun a => a) 3 := ⟨by omega, fun a _ => ⟨fun h => h.symm, fun h => h.symm⟩⟩
  have hg : Good (9 * 1) [((3 : Int), (5 : Rat))] := ⟨by simp, by simp⟩
  refine ⟨ho, hg, ?_⟩
  intro h
  have := (C66_consistent_iff ho exShape _ hg (fun _ => 0) (fun _ => 0) (f := 0) (by omega) (v := 5) rfl).1 h 0 (by omega)
  revert this
  decide +kernel

/-- The condition holds at a corner, where the point interpolates. -/
example : OwnNode 4 7 (fun a => a + 7) 0 ∧ Good (4 * 2) [((1 : Int), (5 : Rat))] ∧
    (∀ a : Nat, a < 4 → (fun a : Int => if a = 0 then (1 : Rat) else 0) a = if (a : Int) = 0 then 1 else 0) :=
  ⟨⟨by omega, fun a _ => by omega⟩, ⟨by simp, by simp⟩, fun _ _ => rfl⟩

end PetIGA.Fix
