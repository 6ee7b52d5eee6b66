import Verif.Props.Fix
import Verif.Spec.LinSys
import Mathlib.Algebra.BigOperators.Ring.Finset
import Mathlib.Tactic.LinearCombination
/-! Property theorems about the elimination of constrained degrees of freedom from element systems (C34, C35). -/
set_option linter.unusedSectionVars false
namespace PetIGA.Fix
open PetIGA.Form PetIGA.Grid PetIGA.Spec Finset

variable {V : Type}

theorem loop_succ {S : Type} (n : Nat) (body : Int → S → S) (s : S) : loop (n+1) body s = body n (loop n body s) := by
  unfold loop
  rw [List.range_succ, List.foldl_append]
  rfl

/-- A loop that updates entry `i` from its own old value. -/
theorem loop_map (g : Int → V → V) (F : Int → V) (n : Nat) :
    loop n (fun i F => upd F i (g i (F i))) F = fun (j : Int) => if 0 ≤ j ∧ j < n then g j (F j) else F j := by
  induction n with
  | zero => funext j; rw [if_neg (by omega)]; rfl
  | succ n ih =>
    rw [loop_succ, ih]
    funext j
    unfold upd
    dsimp only
    by_cases h : j = n
    · subst h
      rw [if_pos rfl, if_neg (by omega), if_pos (by omega)]
    · rw [if_neg h]
      by_cases h2 : 0 ≤ j ∧ j < n
      · rw [if_pos h2, if_pos (by omega)]
      · rw [if_neg h2, if_neg (by omega)]

/-- A loop that stores a constant. -/
theorem loop_const (pos : Int → Int) (z : V) (K : Int → V) (n : Nat) (m : Int) :
    ((∃ i : Int, 0 ≤ i ∧ i < n ∧ m = pos i) → loop n (fun i K => upd K (pos i) z) K m = z) ∧
    ((¬ ∃ i : Int, 0 ≤ i ∧ i < n ∧ m = pos i) → loop n (fun i K => upd K (pos i) z) K m = K m) := by
  induction n with
  | zero => exact ⟨fun ⟨i, h1, h2, _⟩ => by omega, fun _ => rfl⟩
  | succ n ih =>
    rw [loop_succ]
    unfold upd
    constructor
    · rintro ⟨i, h1, h2, h3⟩
      by_cases h : m = pos n
      · rw [if_pos h]
      · rw [if_neg h]
        refine ih.1 ⟨i, h1, ?_, h3⟩
        have : i ≠ n := fun hh => h (hh ▸ h3)
        omega
    · intro hne
      rw [if_neg (fun h => hne ⟨n, by omega, by omega, h⟩)]
      exact ih.2 (fun ⟨i, h1, h2, h3⟩ => hne ⟨i, h1, by omega, h3⟩)

section One
variable [CommRing V]

theorem fixOne_F (N : Nat) {k : Int} (v : V) (s : (Int → V) × (Int → V)) (i : Int) :
    (fixOne N N k v s).2 i = if i = k then v else if 0 ≤ i ∧ i < N then s.2 i - s.1 (i * N + k) * v else s.2 i := by
  unfold fixOne
  dsimp only
  unfold upd
  by_cases h : i = k
  · rw [if_pos h, if_pos h]
  · rw [if_neg h, if_neg h]
    have := congrFun (loop_map (fun (i : Int) (x : V) => x - s.1 (i * N + k) * v) s.2 N) i
    unfold upd at this
    exact this

/-- Clearing row and column `k` and setting the diagonal, entrywise. -/
theorem clear_entry {N : Nat} {k : Int} (hk : 0 ≤ k ∧ k < N) (K : Int → V) {i j : Int} (hi : 0 ≤ i ∧ i < N)
    (hj : 0 ≤ j ∧ j < N) :
    upd (loop N (fun j K => upd K (k * N + j) 0) (loop N (fun i K => upd K (i * N + k) 0) K)) (k * N + k) (1 : V) (i * N + j) =
      if i = k ∨ j = k then (if i = j then 1 else 0) else K (i * N + j) := by
  have c1 := loop_const (fun i => i * N + k) (0 : V) K N (i * N + j)
  have c2 := loop_const (fun j => k * N + j) (0 : V) (loop N (fun i K => upd K (i * N + k) 0) K) N (i * N + j)
  unfold upd at c1 c2 ⊢
  by_cases hd : i * N + j = k * N + k
  · obtain ⟨rfl, rfl⟩ := key_inj hj hk hd
    rw [if_pos rfl, if_pos (.inl rfl), if_pos rfl]
  · rw [if_neg hd]
    by_cases h1 : i = k
    · subst h1
      rw [if_pos (.inl rfl), if_neg (fun h => hd (by rw [h]))]
      exact c2.1 ⟨j, hj.1, hj.2, rfl⟩
    · rw [c2.2 (fun ⟨j', a, b, e⟩ => h1 (key_inj hj ⟨a, b⟩ e).1)]
      by_cases h2 : j = k
      · subst h2
        rw [if_pos (.inr rfl), if_neg h1]
        exact c1.1 ⟨i, hi.1, hi.2, rfl⟩
      · rw [if_neg (by tauto)]
        exact c1.2 (fun ⟨i', a, b, e⟩ => h2 (key_inj hj hk e).2)

theorem outside {N : Nat} {i j : Int} (hi : 0 ≤ i ∧ i < N) (hj : 0 ≤ j ∧ j < N) :
    0 ≤ i * N + j ∧ i * N + j < (N : Int) * N := by
  have := key_range (nen := N) (dof := N) hi hj
  push_cast at this
  exact this

/-- Nothing outside the matrix is touched. -/
theorem clear_frame {N : Nat} {k : Int} (hk : 0 ≤ k ∧ k < N) (K : Int → V) {m : Int} (hm : ¬ (0 ≤ m ∧ m < (N : Int) * N)) :
    upd (loop N (fun j K => upd K (k * N + j) 0) (loop N (fun i K => upd K (i * N + k) 0) K)) (k * N + k) (1 : V) m = K m := by
  have c1 := (loop_const (fun i => i * N + k) (0 : V) K N m).2
    (fun ⟨i, a, b, e⟩ => hm (by rw [e]; exact outside ⟨a, b⟩ hk))
  have c2 := (loop_const (fun j => k * N + j) (0 : V) (loop N (fun i K => upd K (i * N + k) 0) K) N m).2
    (fun ⟨j, a, b, e⟩ => hm (by rw [e]; exact outside hk ⟨a, b⟩))
  unfold upd at c1 c2 ⊢
  rw [if_neg (fun e => hm (by rw [e]; exact outside hk hk)), c2, c1]

end One

variable [CommRing V]

/-- Key `i` occurs in the list. -/
abbrev Fixed (l : List (Int × V)) (i : Int) : Prop := i ∈ l.map Prod.fst

theorem jac_entry {N : Nat} : ∀ (fix : List (Int × V)), (∀ k ∈ fix.map Prod.fst, 0 ≤ k ∧ k < N) → ∀ (J : Int → V) {i j : Int},
    (0 ≤ i ∧ i < N) → (0 ≤ j ∧ j < N) →
    fixJacobian N N fix J (i * N + j) = if Fixed fix i ∨ Fixed fix j then (if i = j then 1 else 0) else J (i * N + j) := by
  intro fix
  induction fix with
  | nil => intro _ J i j _ _; simp [fixJacobian, Fixed]
  | cons p fix ih =>
    intro hr J i j hi hj
    have hk := hr p.1 (by simp)
    have e : fixJacobian N N (p :: fix) J = fixJacobian N N fix (upd (loop N (fun j K => upd K (p.1 * N + j) 0)
        (loop N (fun i K => upd K (i * N + p.1) 0) J)) (p.1 * N + p.1) 1) := rfl
    rw [e, ih (fun k hk => hr k (by simp only [List.map_cons, List.mem_cons]; exact .inr hk)) _ hi hj, clear_entry hk J hi hj]
    simp only [Fixed, List.map_cons, List.mem_cons]
    by_cases h1 : i ∈ fix.map Prod.fst ∨ j ∈ fix.map Prod.fst
    · have h3 : (i = p.1 ∨ i ∈ fix.map Prod.fst) ∨ j = p.1 ∨ j ∈ fix.map Prod.fst := by tauto
      rw [if_pos h1, if_pos h3]
    · rw [if_neg h1]
      by_cases h2 : i = p.1 ∨ j = p.1
      · have h3 : (i = p.1 ∨ i ∈ fix.map Prod.fst) ∨ j = p.1 ∨ j ∈ fix.map Prod.fst := by tauto
        rw [if_pos h2, if_pos h3]
      · rw [if_neg h2, if_neg (by tauto)]

theorem jac_frame {N : Nat} : ∀ (fix : List (Int × V)), (∀ k ∈ fix.map Prod.fst, 0 ≤ k ∧ k < N) → ∀ (J : Int → V) {m : Int},
    ¬ (0 ≤ m ∧ m < (N : Int) * N) → fixJacobian N N fix J m = J m := by
  intro fix
  induction fix with
  | nil => intro _ J m _; rfl
  | cons p fix ih =>
    intro hr J m hm
    have hk := hr p.1 (by simp)
    have e : fixJacobian N N (p :: fix) J = fixJacobian N N fix (upd (loop N (fun j K => upd K (p.1 * N + j) 0)
        (loop N (fun i K => upd K (i * N + p.1) 0) J)) (p.1 * N + p.1) 1) := rfl
    rw [e, ih (fun k hk => hr k (by simp only [List.map_cons, List.mem_cons]; exact .inr hk)) _ hm, clear_frame hk J hm]

/-- The matrix part of `IGAElementFixSystem` is `IGAElementFixJacobian`. -/
theorem sys_K (N : Nat) : ∀ (fix : List (Int × V)) (K F : Int → V),
    (fix.foldl (fun KF p => fixOne N N p.1 p.2 KF) (K, F)).1 = fixJacobian N N fix K := by
  intro fix
  induction fix with
  | nil => intro K F; rfl
  | cons p fix ih =>
    intro K F
    rw [List.foldl_cons]
    have : fixOne N N p.1 p.2 (K, F) = ((fixOne N N p.1 p.2 (K, F)).1, (fixOne N N p.1 p.2 (K, F)).2) := rfl
    rw [this, ih]
    rfl

theorem sys_F {N : Nat} : ∀ (fix : List (Int × V)), (fix.map Prod.fst).Nodup → (∀ k ∈ fix.map Prod.fst, 0 ≤ k ∧ k < N) →
    ∀ (K F : Int → V) (i : Int), (fix.foldl (fun KF p => fixOne N N p.1 p.2 KF) (K, F)).2 i =
      match tableGet fix i with
      | some v => v
      | none => if 0 ≤ i ∧ i < N then F i - (fix.map fun p => K (i * N + p.1) * p.2).sum else F i := by
  intro fix
  induction fix with
  | nil => intro _ _ K F i; simp [tableGet]
  | cons p fix ih =>
    obtain ⟨k, v⟩ := p
    intro hn hr K F i
    simp only [List.map_cons, List.nodup_cons] at hn
    have hk : 0 ≤ k ∧ k < N := hr k (by simp)
    have hr' : ∀ k ∈ fix.map Prod.fst, 0 ≤ k ∧ k < N := fun k hk => hr k (by simp only [List.map_cons, List.mem_cons]; exact .inr hk)
    rw [List.foldl_cons]
    have e : fixOne N N (k, v).1 (k, v).2 (K, F) = ((fixOne N N k v (K, F)).1, (fixOne N N k v (K, F)).2) := rfl
    rw [e, ih hn.2 hr']
    have hK : (fixOne N N k v (K, F)).1 = upd (loop N (fun j K => upd K (k * N + j) 0)
        (loop N (fun i K => upd K (i * N + k) 0) K)) (k * N + k) 1 := rfl
    by_cases hik : i = k
    · subst hik
      rw [tableGet_none.2 hn.1]
      have : tableGet ((i, v) :: fix) i = some v := by simp [tableGet]
      rw [this]
      dsimp only
      rw [if_pos hk, fixOne_F, if_pos rfl]
      have hz : (fix.map fun p => (fixOne N N i v (K, F)).1 (i * N + p.1) * p.2).sum = 0 := by
        apply List.sum_eq_zero
        intro x hx
        obtain ⟨q, hq, rfl⟩ := List.mem_map.1 hx
        have hqk : q.1 ∈ fix.map Prod.fst := List.mem_map.2 ⟨q, hq, rfl⟩
        rw [hK, clear_entry hk K hk (hr' _ hqk), if_pos (.inl rfl), if_neg (fun (h : i = q.1) => hn.1 (h ▸ hqk)), zero_mul]
      rw [hz, sub_zero]
    · have : tableGet ((k, v) :: fix) i = tableGet fix i := by
        have hb : (k == i) = false := by simpa using fun h => hik h.symm
        simp [tableGet, hb]
      rw [this]
      cases hg : tableGet fix i with
      | some w => rfl
      | none =>
        dsimp only
        by_cases hi : 0 ≤ i ∧ i < N
        · rw [if_pos hi, if_pos hi, fixOne_F, if_neg hik, if_pos hi]
          have hz : (fix.map fun p => (fixOne N N k v (K, F)).1 (i * N + p.1) * p.2) = fix.map fun p => K (i * N + p.1) * p.2 := by
            apply List.map_congr_left
            intro q hq
            have hqk : q.1 ∈ fix.map Prod.fst := List.mem_map.2 ⟨q, hq, rfl⟩
            rw [hK, clear_entry hk K hi (hr' _ hqk), if_neg]
            rintro (h | h)
            · exact hik h
            · exact hn.1 (h ▸ hqk)
          rw [hz, List.map_cons, List.sum_cons]
          ring
        · rw [if_neg hi, if_neg hi, fixOne_F, if_neg hik, if_neg hi]

theorem flux_add : ∀ (flux : List (Int × V)), (flux.map Prod.fst).Nodup → ∀ (F : Int → V) (i : Int),
    flux.foldl (fun F p => upd F p.1 (F p.1 + p.2)) F i = F i + (tableGet flux i).getD 0 := by
  intro flux
  induction flux with
  | nil => intro _ F i; simp [tableGet]
  | cons p flux ih =>
    obtain ⟨k, v⟩ := p
    intro hn F i
    simp only [List.map_cons, List.nodup_cons] at hn
    rw [List.foldl_cons, ih hn.2]
    by_cases h : i = k
    · subst h
      rw [tableGet_none.2 hn.1]
      simp [upd, tableGet]
    · have hb : (k == i) = false := by simpa using fun h' => h h'.symm
      simp [upd, tableGet, hb, h]

theorem flux_sub : ∀ (flux : List (Int × V)), (flux.map Prod.fst).Nodup → ∀ (F : Int → V) (i : Int),
    flux.foldl (fun F p => upd F p.1 (F p.1 - p.2)) F i = F i - (tableGet flux i).getD 0 := by
  intro flux
  induction flux with
  | nil => intro _ F i; simp [tableGet]
  | cons p flux ih =>
    obtain ⟨k, v⟩ := p
    intro hn F i
    simp only [List.map_cons, List.nodup_cons] at hn
    rw [List.foldl_cons, ih hn.2]
    by_cases h : i = k
    · subst h
      rw [tableGet_none.2 hn.1]
      simp [upd, tableGet]
    · have hb : (k == i) = false := by simpa using fun h' => h h'.symm
      simp [upd, tableGet, hb, h]

/-- **C34**, entries: rows and columns of constrained indices become those of the identity and everything else of
the matrix is unchanged; the right-hand side is the prescribed value at a constrained index, and
`F_i + flux_i - Σ_k K_ik v_k` at a free one; nothing outside the two arrays changes. -/
theorem C34_entries (N : Nat) (s : Fixes V) (h1 : Good N s.fix) (h2 : Good N s.flux) (K F : Int → V) :
    (∀ i j : Int, (0 ≤ i ∧ i < N) → (0 ≤ j ∧ j < N) → (fixSystem N N s K F).1 (i * N + j) =
      if Fixed s.fix i ∨ Fixed s.fix j then (if i = j then 1 else 0) else K (i * N + j)) ∧
    (∀ i : Int, 0 ≤ i ∧ i < N → (fixSystem N N s K F).2 i = match tableGet s.fix i with
      | some v => v
      | none => F i + (tableGet s.flux i).getD 0 - (s.fix.map fun p => K (i * N + p.1) * p.2).sum) ∧
    (∀ m : Int, ¬ (0 ≤ m ∧ m < (N : Int) * N) → (fixSystem N N s K F).1 m = K m) ∧
    (∀ m : Int, ¬ (0 ≤ m ∧ m < (N : Int)) → (fixSystem N N s K F).2 m = F m) := by
  unfold fixSystem
  dsimp only
  refine ⟨?_, ?_, ?_, ?_⟩
  · intro i j hi hj
    rw [sys_K, jac_entry s.fix h1.range K hi hj]
  · intro i hi
    rw [sys_F s.fix h1.distinct h1.range, if_pos hi, flux_add s.flux h2.distinct]
  · intro m hm
    rw [sys_K, jac_frame s.fix h1.range K hm]
  · intro m hm
    have : tableGet s.fix m = none := tableGet_none.2 (fun h => hm (h1.range m h))
    have h' : tableGet s.flux m = none := tableGet_none.2 (fun h => hm (h2.range m h))
    rw [sys_F s.fix h1.distinct h1.range, this, if_neg hm, flux_add s.flux h2.distinct, h']
    simp

/-- **C34**: symmetry is preserved. -/
theorem C34_symmetric (N : Nat) (s : Fixes V) (h1 : Good N s.fix) (h2 : Good N s.flux) (K F : Int → V)
    (hs : Symmetric' N K) : Symmetric' N (fixSystem N N s K F).1 := by
  intro i j hi hj
  have := (C34_entries N s h1 h2 K F).1
  rw [this i j hi hj, this j i hj hi, hs i j hi hj]
  by_cases h : Fixed s.fix i ∨ Fixed s.fix j
  · rw [if_pos h, if_pos h.symm]
    by_cases e : i = j
    · rw [if_pos e, if_pos e.symm]
    · rw [if_neg e, if_neg (fun h => e h.symm)]
  · rw [if_neg h, if_neg (fun hh => h hh.symm)]

/-- Sum over the constrained indices. -/
theorem sum_fixed {N : Nat} (g : Int → V) : ∀ (fix : List (Int × V)), Good N fix →
    (∑ j ∈ range N, if Fixed fix (j : Int) then g j else 0) = (fix.map fun p => g p.1).sum := by
  intro fix
  induction fix with
  | nil => intro _; simp [Fixed]
  | cons p fix ih =>
    obtain ⟨k, v⟩ := p
    intro h
    have hn := h.distinct
    simp only [List.map_cons, List.nodup_cons] at hn
    have hk : 0 ≤ k ∧ k < N := h.range k (by simp)
    have h' : Good N fix := ⟨hn.2, fun q hq => h.range q (by simp only [List.map_cons, List.mem_cons]; exact .inr hq)⟩
    have e0 : (((k, v) :: fix).map fun p => g p.1).sum = g k + (fix.map fun p => g p.1).sum := by
      rw [List.map_cons, List.sum_cons]
    rw [e0, ← ih h']
    have : (∑ j ∈ range N, if (j : Int) = k then g j else 0) = g k := by
      rw [Finset.sum_eq_single k.toNat]
      · rw [if_pos (by omega)]; congr 1; omega
      · intro b _ hb; rw [if_neg (by omega)]
      · intro hb; exact absurd (Finset.mem_range.2 (by omega)) hb
    rw [← this, ← Finset.sum_add_distrib]
    apply Finset.sum_congr rfl
    intro j _
    simp only [Fixed, List.map_cons, List.mem_cons]
    by_cases h1 : (j : Int) = k
    · rw [if_pos (.inl h1), if_pos h1, if_neg (fun hh => hn.1 (by rw [← h1]; exact hh)), add_zero]
    · rw [if_neg h1, zero_add]
      by_cases h2 : (j : Int) ∈ fix.map Prod.fst
      · rw [if_pos (.inr h2), if_pos h2]
      · rw [if_neg (by tauto), if_neg h2]

theorem fixed_get {l : List (Int × V)} {i : Int} : Fixed l i ↔ ∃ v, tableGet l i = some v := by
  constructor
  · intro h
    cases hg : tableGet l i with
    | some v => exact ⟨v, rfl⟩
    | none => exact absurd h (tableGet_none.1 hg)
  · rintro ⟨v, hv⟩
    by_contra h
    rw [tableGet_none.2 h] at hv
    simp at hv

/-- Rows of the modified matrix. -/
theorem rowDot_fixed {N : Nat} (s : Fixes V) (h1 : Good N s.fix) (h2 : Good N s.flux) (K F x : Int → V) {i : Int}
    (hi : 0 ≤ i ∧ i < N) (hf : Fixed s.fix i) : rowDot N (fixSystem N N s K F).1 x i = x i := by
  unfold rowDot
  rw [Finset.sum_eq_single i.toNat]
  · have e : ((i.toNat : Nat) : Int) = i := by omega
    rw [e, (C34_entries N s h1 h2 K F).1 i i hi hi, if_pos (.inl hf), if_pos rfl, one_mul]
  · intro j hj hne
    have hj' := Finset.mem_range.1 hj
    rw [(C34_entries N s h1 h2 K F).1 i j hi (by omega), if_pos (.inl hf), if_neg (by omega), zero_mul]
  · intro h; exact absurd (Finset.mem_range.2 (by omega)) h

theorem rowDot_free {N : Nat} (s : Fixes V) (h1 : Good N s.fix) (h2 : Good N s.flux) (K F x : Int → V) {i : Int}
    (hi : 0 ≤ i ∧ i < N) (hf : ¬ Fixed s.fix i) :
    rowDot N (fixSystem N N s K F).1 x i + (s.fix.map fun p => K (i * N + p.1) * x p.1).sum = rowDot N K x i := by
  unfold rowDot
  rw [← sum_fixed (fun k => K (i * N + k) * x k) s.fix h1, ← Finset.sum_add_distrib]
  apply Finset.sum_congr rfl
  intro j hj
  have hj' := Finset.mem_range.1 hj
  rw [(C34_entries N s h1 h2 K F).1 i j hi (by omega)]
  by_cases h : Fixed s.fix (j : Int)
  · rw [if_pos (.inr h), if_neg (fun (e : i = j) => hf (by rw [e]; exact h)), zero_mul, zero_add, if_pos h]
  · rw [if_neg (by tauto), if_neg h, add_zero]

/-- **C34**: a vector solves the modified element system exactly when it takes the prescribed values and satisfies
the original equations, with the loads, at the free indices. -/
theorem C34_solves_iff (N : Nat) (s : Fixes V) (h1 : Good N s.fix) (h2 : Good N s.flux) (K F x : Int → V) :
    Solves N (fixSystem N N s K F).1 (fixSystem N N s K F).2 x ↔
      (∀ p ∈ s.fix, x p.1 = p.2) ∧
      ∀ i : Int, (0 ≤ i ∧ i < N) → ¬ Fixed s.fix i → rowDot N K x i = F i + (tableGet s.flux i).getD 0 := by
  have hF := (C34_entries N s h1 h2 K F).2.1
  have hval : (∀ p ∈ s.fix, x p.1 = p.2) → ∀ i : Int, (s.fix.map fun p => K (i * N + p.1) * x p.1).sum =
      (s.fix.map fun p => K (i * N + p.1) * p.2).sum := by
    intro h i
    congr 1
    apply List.map_congr_left
    intro p hp
    rw [h p hp]
  constructor
  · intro hs
    have hx : ∀ p ∈ s.fix, x p.1 = p.2 := by
      intro p hp
      have hm : Fixed s.fix p.1 := List.mem_map.2 ⟨p, hp, rfl⟩
      have hr := h1.range p.1 hm
      have := hs p.1 hr
      rw [rowDot_fixed s h1 h2 K F x hr hm, hF p.1 hr, (tableGet_iff h1.distinct p.1 p.2).2 hp] at this
      exact this
    refine ⟨hx, ?_⟩
    intro i hi hf
    have := hs i hi
    rw [hF i hi, tableGet_none.2 hf] at this
    rw [← rowDot_free s h1 h2 K F x hi hf, this, hval hx]
    ring
  · rintro ⟨hx, hfree⟩ i hi
    rw [hF i hi]
    by_cases hf : Fixed s.fix i
    · obtain ⟨v, hv⟩ := fixed_get.1 hf
      rw [rowDot_fixed s h1 h2 K F x hi hf, hv]
      exact hx (i, v) ((tableGet_iff h1.distinct i v).1 hv)
    · rw [tableGet_none.2 hf]
      have a := rowDot_free s h1 h2 K F x hi hf
      rw [hfree i hi hf, hval hx] at a
      exact eq_sub_of_add_eq a

/-! ### C35 -/

theorem fixValues_gen : ∀ (fix : List (Int × V)), (fix.map Prod.fst).Nodup → ∀ (U : Int → V) (acc : List (Int × V × V)),
    fix.foldl (fun (s : List (Int × V × V) × (Int → V)) p => (s.1 ++ [(p.1, p.2, s.2 p.1)], upd s.2 p.1 p.2)) (acc, U) =
      (acc ++ fix.map (fun p => (p.1, p.2, U p.1)), fun j => (tableGet fix j).getD (U j)) := by
  intro fix
  induction fix with
  | nil => intro _ U acc; simp [tableGet]
  | cons p fix ih =>
    obtain ⟨k, v⟩ := p
    intro hn U acc
    simp only [List.map_cons, List.nodup_cons] at hn
    rw [List.foldl_cons, ih hn.2]
    refine Prod.ext ?_ ?_
    · simp only [List.append_assoc, List.map_cons, List.cons_append, List.nil_append]
      congr 2
      apply List.map_congr_left
      intro q hq
      have : q.1 ≠ k := fun h => hn.1 (h ▸ List.mem_map.2 ⟨q, hq, rfl⟩)
      simp [upd, this]
    · funext j
      dsimp only
      by_cases h : j = k
      · subst h
        rw [tableGet_none.2 hn.1]
        simp [upd, tableGet]
      · have hb : (k == j) = false := by simpa using fun h' => h h'.symm
        simp [upd, tableGet, hb, h]

/-- **C35**, values: the old values at constrained indices are saved, and replaced by the prescribed ones; other
entries are unchanged. -/
theorem C35_fixValues (N : Nat) (fix : List (Int × V)) (h : Good N fix) (U : Int → V) :
    (fixValues fix U).1 = fix.map (fun p => (p.1, p.2, U p.1)) ∧
    ∀ j, (fixValues fix U).2 j = (tableGet fix j).getD (U j) := by
  unfold fixValues
  rw [fixValues_gen fix h.distinct U []]
  exact ⟨rfl, fun _ => rfl⟩

theorem fixFun_gen (U : Int → V) : ∀ (fix : List (Int × V)), (fix.map Prod.fst).Nodup → ∀ (F : Int → V) (i : Int),
    (fix.map fun p => (p.1, p.2, U p.1)).foldl (fun F (p : Int × V × V) => upd F p.1 (p.2.2 - p.2.1)) F i =
      match tableGet fix i with | some v => U i - v | none => F i := by
  intro fix
  induction fix with
  | nil => intro _ F i; simp [tableGet]
  | cons p fix ih =>
    obtain ⟨k, v⟩ := p
    intro hn F i
    simp only [List.map_cons, List.nodup_cons] at hn
    rw [List.map_cons, List.foldl_cons, ih hn.2]
    by_cases h : i = k
    · subst h
      rw [tableGet_none.2 hn.1]
      simp [upd, tableGet]
    · have hb : (k == i) = false := by simpa using fun h' => h h'.symm
      simp [upd, tableGet, hb, h]

/-- **C35**, residual: `u - v` at constrained indices, the load subtracted elsewhere. -/
theorem C35_fixFunction (N : Nat) (s : Fixes V) (h1 : Good N s.fix) (h2 : Good N s.flux) (U F : Int → V) (i : Int) :
    fixFunction s.flux (fixValues s.fix U).1 F i = match tableGet s.fix i with
      | some v => U i - v
      | none => F i - (tableGet s.flux i).getD 0 := by
  unfold fixFunction
  rw [(C35_fixValues N s.fix h1 U).1, fixFun_gen U s.fix h1.distinct, flux_sub s.flux h2.distinct]

/-- **C35**, Jacobian: constrained rows and columns become those of the identity, the rest is unchanged. -/
theorem C35_fixJacobian (N : Nat) (fix : List (Int × V)) (h : Good N fix) (J : Int → V) :
    (∀ i j : Int, (0 ≤ i ∧ i < N) → (0 ≤ j ∧ j < N) → fixJacobian N N fix J (i * N + j) =
      if Fixed fix i ∨ Fixed fix j then (if i = j then 1 else 0) else J (i * N + j)) ∧
    (∀ m : Int, ¬ (0 ≤ m ∧ m < (N : Int) * N) → fixJacobian N N fix J m = J m) :=
  ⟨fun _ _ hi hj => jac_entry fix h.range J hi hj, fun _ hm => jac_frame fix h.range J hm⟩

/-- **C35**, consistency: for the linear problem `R(U) = K U - F`, with the residual evaluated on the values after
`IGAElementFixValues`, a correction `d` solves the modified Newton equation `J' d = R'` at any state `U` exactly when
`U - d` solves the system produced by `IGAElementFixSystem`. -/
theorem C35_newton_step (N : Nat) (s : Fixes V) (h1 : Good N s.fix) (h2 : Good N s.flux) (K F U d : Int → V) :
    let R : Int → V := fun i => rowDot N K (fixValues s.fix U).2 i - F i
    Solves N (fixJacobian N N s.fix K) (fixFunction s.flux (fixValues s.fix U).1 R) d ↔
      Solves N (fixSystem N N s K F).1 (fixSystem N N s K F).2 (fun j => U j - d j) := by
  intro R
  have hV := (C35_fixValues N s.fix h1 U).2
  have hK : (fixSystem N N s K F).1 = fixJacobian N N s.fix K := sys_K N s.fix K _
  rw [C34_solves_iff N s h1 h2]
  -- value of the residual row
  have hrow : ∀ i : Int, (0 ≤ i ∧ i < N) → ¬ Fixed s.fix i →
      rowDot N K (fixValues s.fix U).2 i = rowDot N (fixSystem N N s K F).1 U i + (s.fix.map fun p => K (i * N + p.1) * p.2).sum := by
    intro i hi hf
    rw [← rowDot_free s h1 h2 K F (fixValues s.fix U).2 hi hf]
    congr 1
    · unfold rowDot
      apply Finset.sum_congr rfl
      intro j hj
      have hj' := Finset.mem_range.1 hj
      rw [(C34_entries N s h1 h2 K F).1 i j hi (by omega)]
      by_cases h : Fixed s.fix (j : Int)
      · rw [if_pos (.inr h), if_neg (fun (e : i = j) => hf (by rw [e]; exact h)), zero_mul, zero_mul]
      · rw [hV, tableGet_none.2 h]; rfl
    · congr 1
      apply List.map_congr_left
      intro p hp
      rw [hV, (tableGet_iff h1.distinct p.1 p.2).2 hp]; rfl
  have hsub : ∀ i, rowDot N (fixSystem N N s K F).1 (fun j => U j - d j) i =
      rowDot N (fixSystem N N s K F).1 U i - rowDot N (fixSystem N N s K F).1 d i := by
    intro i
    unfold rowDot
    rw [← Finset.sum_sub_distrib]
    apply Finset.sum_congr rfl
    intro j _; ring
  rw [← hK]
  have key : ∀ i : Int, (0 ≤ i ∧ i < N) → ¬ Fixed s.fix i → (∀ p ∈ s.fix, U p.1 - d p.1 = p.2) →
      (rowDot N (fixSystem N N s K F).1 d i = R i - (tableGet s.flux i).getD 0 ↔
       rowDot N K (fun j => U j - d j) i = F i + (tableGet s.flux i).getD 0) := by
    intro i hi hf hx
    rw [← rowDot_free s h1 h2 K F (fun j => U j - d j) hi hf, hsub]
    have e : (s.fix.map fun p => K (i * N + p.1) * (U p.1 - d p.1)) = s.fix.map fun p => K (i * N + p.1) * p.2 := by
      apply List.map_congr_left
      intro p hp
      rw [hx p hp]
    rw [e]
    show rowDot N (fixSystem N N s K F).1 d i = rowDot N K (fixValues s.fix U).2 i - F i - (tableGet s.flux i).getD 0 ↔ _
    rw [hrow i hi hf]
    constructor
    · intro h; rw [h]; ring
    · intro h; linear_combination -h
  constructor
  · intro hs
    have hx : ∀ p ∈ s.fix, U p.1 - d p.1 = p.2 := by
      intro p hp
      have hm : Fixed s.fix p.1 := List.mem_map.2 ⟨p, hp, rfl⟩
      have hr := h1.range p.1 hm
      have := hs p.1 hr
      rw [rowDot_fixed s h1 h2 K F d hr hm, C35_fixFunction N s h1 h2, (tableGet_iff h1.distinct p.1 p.2).2 hp] at this
      dsimp only at this
      rw [this]; ring
    refine ⟨hx, ?_⟩
    intro i hi hf
    have := hs i hi
    rw [C35_fixFunction N s h1 h2, tableGet_none.2 hf] at this
    exact (key i hi hf hx).1 this
  · rintro ⟨hx, hfree⟩ i hi
    rw [C35_fixFunction N s h1 h2]
    by_cases hf : Fixed s.fix i
    · obtain ⟨v, hv⟩ := fixed_get.1 hf
      rw [rowDot_fixed s h1 h2 K F d hi hf, hv]
      have := hx (i, v) ((tableGet_iff h1.distinct i v).1 hv)
      dsimp only at this ⊢
      rw [← this]; ring
    · rw [tableGet_none.2 hf]
      exact (key i hi hf hx).2 (hfree i hi hf)

/-- The lists built by `IGAElementBuildFix` meet the hypotheses of the theorems above. -/
theorem build_good (c : Ctx V) (ops : List (Op V)) (hform : c.form = run create ops) (hn : ∀ d ∈ c.dirs, 1 ≤ d.nen)
    (s : Fixes V) (h : build c = .ok s) : Good c.bufsize s.fix ∧ Good c.bufsize s.flux := by
  have hok' : FormOK c.form := by rw [hform]; exact (C30_last_setting_wins ops).2.2
  obtain ⟨s', e, a, b⟩ := build_spec c hok' hn
  rw [h] at e
  cases e
  exact ⟨a.good, b.good⟩

/-- The corner element of `exCtx`: 12 unknowns, 4 of them constrained. -/
example : ∃ s, build exCtx = .ok s ∧ Good 12 s.fix ∧ Good 12 s.flux ∧ s.fix.length = 4 ∧ s.flux.length = 4 := by
  refine ⟨⟨[(0, 6), (6, 5), (2, 6), (4, 6)], [(1, 40), (7, 76), (9, 36), (11, 36)]⟩, by decide +kernel, ?_, ?_, rfl, rfl⟩
  · exact ⟨by decide, by decide⟩
  · exact ⟨by decide, by decide⟩

end PetIGA.Fix
