import Verif.Model.Driver
import Verif.Props.Elem
import Verif.Props.FixSystem
/-! Property theorems about what the assembly loops evaluate on one element (C77, C79). -/
set_option linter.unusedSectionVars false
namespace PetIGA.Drv
open PetIGA.Fix PetIGA.Spec

variable {V P : Type} [CommRing V]

/-! ### C79: work arrays -/

/-- Requests a user can make inside the element loop. -/
inductive Req where
  | vec
  | mat
  | val
  deriving DecidableEq

/-- The three requests; the values requested are those of a `NULL` array, i.e. a zeroed array. -/
def request (E : Elt V P) (w : Work V) : Req → Res (Nat × Work V)
  | .vec => getWorkVec E w
  | .mat => getWorkMat E w
  | .val => getValues E none w

/-- The array `k` of a kind. -/
def Work.arr (w : Work V) : Req → Nat → Int → V
  | .vec => w.wvec
  | .mat => w.wmat
  | .val => w.wval

/-- Number of entries of the arrays of a kind. -/
def Elt.len (E : Elt V P) : Req → Nat
  | .vec => E.neq * E.dof
  | .mat => (E.neq * E.dof) * (E.nen * E.dof)
  | .val => E.nen * E.dof

/-- How many arrays of a kind exist. -/
def limit : Req → Nat
  | .vec => 8
  | .mat => 4
  | .val => 8

/-- A sequence of requests during one element; the user may write the arrays in between (`write k A` replaces the array
obtained by the `k`-th request). -/
def requests (E : Elt V P) : List (Req × (Work V → Work V)) → Work V → Res (List (Req × Nat) × Work V)
  | [], w => .ok ([], w)
  | q :: qs, w => (request E w q.1).bind fun r => (requests E qs (q.2 r.2)).bind fun s => .ok ((q.1, r.1) :: s.1, s.2)

/-- The counters a request depends on. -/
def Work.count (w : Work V) : Req → Nat
  | .vec => w.nvec
  | .mat => w.nmat
  | .val => w.nval

/-- **C79.** What a request returns inside the element loop: the next array of the kind, zeroed; everything else is untouched.
When the arrays of the kind are exhausted the request is refused. -/
theorem C79_request (E : Elt V P) (hE : 0 ≤ E.index) (w : Work V) (q : Req) :
    (w.count q < limit q → ∃ w', request E w q = .ok (w.count q, w') ∧ w'.count q = w.count q + 1 ∧
      (∀ q', q' ≠ q → w'.count q' = w.count q') ∧
      (∀ i : Int, 0 ≤ i → i < E.len q → w'.arr q (w.count q) i = 0) ∧
      (∀ q' k, (q' ≠ q ∨ k ≠ w.count q) → w'.arr q' k = w.arr q' k)) ∧
    (limit q ≤ w.count q → request E w q = .err .outOfRange) := by
  have hi : ¬ E.index < 0 := by omega
  cases q
  all_goals
    refine ⟨fun h => ?_, fun h => ?_⟩
    · simp only [Work.count, limit] at h
      simp only [request, getWorkVec, getWorkMat, getValues, if_neg hi, if_neg (Nat.not_le.2 h), ge_iff_le]
      refine ⟨_, rfl, rfl, ?_, ?_, ?_⟩
      · intro q' hq'; cases q' <;> first | exact absurd rfl hq' | rfl
      · intro i h0 h1
        simp only [Elt.len] at h1
        simp [Work.arr, Work.count, setArr, zeroed, Elt.m, Elt.n, h0]
        intro h2
        exact absurd (lt_of_lt_of_le h1 (by exact_mod_cast h2)) (lt_irrefl _)
      · intro q' k hk
        cases q' <;> simp only [Work.arr, Work.count, setArr] at hk ⊢
        funext i
        rw [if_neg (by rcases hk with hk | hk; exact absurd rfl hk; exact hk)]
    · simp only [Work.count, limit] at h
      simp only [request, getWorkVec, getWorkMat, getValues, if_neg hi, ge_iff_le, if_pos h]


/-- **C79.** Outside the element loop every request is refused. -/
theorem C79_outside (E : Elt V P) (hE : E.index < 0) (w : Work V) (q : Req) : request E w q = .err .wrongState := by
  cases q <;> simp [request, getWorkVec, getWorkMat, getValues, hE]

/-- The user writes arrays, not the bookkeeping of the library. -/
def Writes (f : Work V → Work V) : Prop := ∀ w q, (f w).count q = w.count q

theorem requests_ok (E : Elt V P) (hE : 0 ≤ E.index) : ∀ (qs : List (Req × (Work V → Work V))) (w : Work V),
    (∀ q ∈ qs, Writes q.2) → (∀ q, w.count q + (qs.map Prod.fst).count q ≤ limit q) →
    ∃ out w', requests E qs w = .ok (out, w') ∧ out.map Prod.fst = qs.map Prod.fst ∧ out.Nodup ∧
      ∀ o ∈ out, w.count o.1 ≤ o.2 ∧ o.2 < limit o.1 := by
  intro qs
  induction qs with
  | nil => intro w _ _; exact ⟨[], w, rfl, rfl, List.nodup_nil, by simp⟩
  | cons q qs ih =>
    intro w hw hc
    have h1 : w.count q.1 < limit q.1 := by
      have := hc q.1
      simp only [List.map_cons, List.count_cons_self] at this
      omega
    obtain ⟨w', a1, a2, a3, _, _⟩ := (C79_request E hE w q.1).1 h1
    have hf := hw q (by simp)
    have hc' : ∀ q', (q.2 w').count q' + (qs.map Prod.fst).count q' ≤ limit q' := by
      intro q'
      rw [hf]
      have := hc q'
      simp only [List.map_cons] at this
      by_cases e : q' = q.1
      · subst e; rw [List.count_cons_self] at this; omega
      · rw [a3 q' e]
        rw [List.count_cons_of_ne (fun h => e h.symm)] at this
        exact this
    obtain ⟨out, w'', b1, b2, b3, b4⟩ := ih (q.2 w') (fun p hp => hw p (by simp [hp])) hc'
    refine ⟨(q.1, w.count q.1) :: out, w'', ?_, ?_, ?_, ?_⟩
    · simp only [requests, a1, Res.bind, b1]
    · simp [b2]
    · rw [List.nodup_cons]
      refine ⟨fun h => ?_, b3⟩
      have := (b4 _ h).1
      rw [hf, a2] at this
      omega
    · intro o ho
      rcases List.mem_cons.1 ho with rfl | ho
      · exact ⟨le_refl _, h1⟩
      · have := b4 o ho
        rw [hf] at this
        by_cases e : o.1 = q.1
        · rw [e] at this ⊢; rw [a2] at this; omega
        · rw [a3 _ e] at this; exact this

theorem requests_refused (E : Elt V P) (hE : 0 ≤ E.index) : ∀ (qs : List (Req × (Work V → Work V))) (w : Work V),
    (∀ q ∈ qs, Writes q.2) → (∃ q, limit q < w.count q + (qs.map Prod.fst).count q) → (∀ q, w.count q ≤ limit q) →
    requests E qs w = .err .outOfRange := by
  intro qs
  induction qs with
  | nil =>
    rintro w _ ⟨q, hq⟩ hl
    have := hl q
    simp at hq
    omega
  | cons q qs ih =>
    rintro w hw ⟨p, hp⟩ hl
    by_cases h1 : w.count q.1 < limit q.1
    · obtain ⟨w', a1, a2, a3, _, _⟩ := (C79_request E hE w q.1).1 h1
      have hf := hw q (by simp)
      have hc : ∀ q', (q.2 w').count q' = w.count q' + (if q' = q.1 then 1 else 0) := by
        intro q'
        rw [hf]
        by_cases e : q' = q.1
        · subst e; rw [if_pos rfl, a2]
        · rw [if_neg e, a3 q' e]; rfl
      simp only [requests, a1, Res.bind]
      rw [ih (q.2 w') (fun p hp => hw p (by simp [hp])) ⟨p, ?_⟩ ?_]
      · rw [hc]
        simp only [List.map_cons] at hp
        by_cases e : p = q.1
        · subst e; rw [List.count_cons_self] at hp; rw [if_pos rfl]; omega
        · rw [List.count_cons_of_ne (fun h => e h.symm)] at hp
          rw [if_neg e]; omega
      · intro q'
        rw [hc]
        have := hl q'
        split_ifs with e
        · subst e; omega
        · omega
    · simp only [requests, (C79_request E hE w q.1).2 (by omega), Res.bind]

/-- **C79.** In one element, whatever earlier elements did and whatever the user writes in between, any sequence of at
most eight vector, four matrix and eight value requests succeeds and no array is handed out twice; a sequence with more
requests is refused. -/
theorem C79_element (E : Elt V P) (hE : 0 ≤ E.index) (w : Work V) (qs : List (Req × (Work V → Work V)))
    (hw : ∀ q ∈ qs, Writes q.2) :
    ((∀ q, (qs.map Prod.fst).count q ≤ limit q) →
      ∃ out w', requests E qs (nextElement w) = .ok (out, w') ∧ out.map Prod.fst = qs.map Prod.fst ∧ out.Nodup ∧
        ∀ o ∈ out, o.2 < limit o.1) ∧
    ((∃ q, limit q < (qs.map Prod.fst).count q) → requests E qs (nextElement w) = .err .outOfRange) := by
  have h0 : ∀ q, (nextElement w).count q = 0 := by intro q; cases q <;> rfl
  constructor
  · intro h
    obtain ⟨out, w', a, b, c, d⟩ := requests_ok E hE qs (nextElement w) hw (fun q => by rw [h0]; have := h q; omega)
    exact ⟨out, w', a, b, c, fun o ho => (d o ho).2⟩
  · rintro ⟨q, hq⟩
    exact requests_refused E hE qs _ hw ⟨q, by rw [h0]; omega⟩ fun q => by rw [h0]; omega

/-- **C79.** The same for the arrays of a point: the vector and matrix handed out at a point are zeroed and the other
arrays are untouched; a ninth vector or fifth matrix, or a request outside the point loop, is refused. -/
theorem C79_point (E : Elt V P) (index : Int) (w : PWork V) :
    (0 ≤ index → w.nvec < 8 → ∃ w', pointGetWorkVec E index w = .ok (w.nvec, w') ∧ w'.nvec = w.nvec + 1 ∧ w'.nmat = w.nmat ∧
      (∀ i : Int, 0 ≤ i → i < (E.neq * E.dof : Nat) → w'.wvec w.nvec i = 0) ∧ (∀ k, k ≠ w.nvec → w'.wvec k = w.wvec k) ∧
      w'.wmat = w.wmat) ∧
    (0 ≤ index → w.nmat < 4 → ∃ w', pointGetWorkMat E index w = .ok (w.nmat, w') ∧ w'.nmat = w.nmat + 1 ∧ w'.nvec = w.nvec ∧
      (∀ i : Int, 0 ≤ i → i < (E.neq * E.dof * (E.nen * E.dof) : Nat) → w'.wmat w.nmat i = 0) ∧
      (∀ k, k ≠ w.nmat → w'.wmat k = w.wmat k) ∧ w'.wvec = w.wvec) ∧
    (0 ≤ index → 8 ≤ w.nvec → pointGetWorkVec E index w = .err .outOfRange) ∧
    (0 ≤ index → 4 ≤ w.nmat → pointGetWorkMat E index w = .err .outOfRange) ∧
    (index < 0 → pointGetWorkVec E index w = .err .wrongState ∧ pointGetWorkMat E index w = .err .wrongState) ∧
    (nextPoint w).nvec = 0 ∧ (nextPoint w).nmat = 0 := by
  refine ⟨fun h0 h => ?_, fun h0 h => ?_, fun h0 h => ?_, fun h0 h => ?_, fun h => ?_, rfl, rfl⟩
  · unfold pointGetWorkVec
    rw [if_neg (by omega), if_neg (by omega)]
    refine ⟨_, rfl, rfl, rfl, ?_, ?_, rfl⟩
    · intro i hi hi'
      simp only [setArr, if_true, zeroed, Elt.m]
      rw [if_pos ⟨hi, hi'⟩]
    · intro k hk; simp [setArr, hk]
  · unfold pointGetWorkMat
    rw [if_neg (by omega), if_neg (by omega)]
    refine ⟨_, rfl, rfl, rfl, ?_, ?_, rfl⟩
    · intro i hi hi'
      simp only [setArr, if_true, zeroed, Elt.m, Elt.n]
      rw [if_pos ⟨hi, hi'⟩]
    · intro k hk; simp [setArr, hk]
  · unfold pointGetWorkVec; rw [if_neg (by omega), if_pos h]
  · unfold pointGetWorkMat; rw [if_neg (by omega), if_pos h]
  · unfold pointGetWorkVec pointGetWorkMat; rw [if_pos h, if_pos h]; exact ⟨rfl, rfl⟩

/-! ### The form loop -/

/-- The element lies on side `b` of the grid (direction `b/2`, high side if `b` is odd) and the form asked for that
side. -/
def OnSide (E : Elt V P) (b : Nat) : Prop :=
  E.id.getD (b / 2) 0 = (if b % 2 = 1 then E.sizes.getD (b / 2) 0 - 1 else 0) ∧ E.visit (b / 2 : Nat) (b % 2 : Nat) = true

instance (E : Elt V P) (b : Nat) : Decidable (OnSide E b) := by unfold OnSide; infer_instance

/-- The quadrature sum `∑ R(q) detJac w` over a list of points. -/
def pointSum (qs : List (QP V P)) (R : P → V) : V := (qs.map fun q => R q.data * (q.detJac * q.weight)).sum

/-- The integral of `R` over an element: the interior plus the sides with a boundary form. -/
def integral (E : Elt V P) (R : P → V) : V :=
  ((List.range (2 * E.id.length)).map fun b => if OnSide E b then pointSum (E.points (some (b:Int))) R else 0).sum +
    pointSum (E.points none) R

theorem sum_filter_perm {α : Type} [DecidableEq α] (l m : List α) (hl : l.Nodup) (hm : m.Nodup) (p : α → Prop) [DecidablePred p]
    (h : ∀ a, a ∈ l ↔ a ∈ m ∧ p a) (f : α → V) : (l.map f).sum = (m.map fun a => if p a then f a else 0).sum := by
  have e : l.Perm (m.filter fun a => decide (p a)) := by
    rw [List.perm_ext_iff_of_nodup hl (hm.filter _)]
    intro a
    rw [h, List.mem_filter]
    simp
  rw [(e.map f).sum_eq]
  clear e h hm hl
  induction m with
  | nil => rfl
  | cons a m ih =>
    by_cases ha : p a
    · rw [List.filter_cons_of_pos (by simpa using ha), List.map_cons, List.sum_cons, List.map_cons, List.sum_cons, if_pos ha, ih]
    · rw [List.filter_cons_of_neg (by simpa using ha), List.map_cons, List.sum_cons, if_neg ha, ih, zero_add]

theorem visits_sum (E : Elt V P) (f : Option Int → V) :
    ((visits E).map f).sum = ((List.range (2 * E.id.length)).map fun b => if OnSide E b then f (some (b:Int)) else 0).sum +
      f none := by
  obtain ⟨l, h1, h2, h3, _⟩ := Elem.C23_form_loop E.visit ⟨E.id, E.id, E.sizes, E.id, E.index, 0, -1, false⟩ rfl
    (2 * E.id.length + 3) (by simp [Elem.Elem.dim])
  have hv : visits E = l.map some ++ [none] := h1
  rw [hv, List.map_append, List.sum_append, List.map_map]
  simp only [List.map_cons, List.map_nil, List.sum_cons, List.sum_nil, add_zero]
  congr 1
  have hp : ∀ b : Nat, Elem.Wanted ⟨E.id, E.id, E.sizes, E.id, E.index, 0, -1, false⟩ E.visit (b:Int) ↔ OnSide E b := by
    intro b
    unfold Elem.Wanted OnSide
    have a1 : ((b:Int) / 2).toNat = b / 2 := by omega
    have a2 : (b:Int) / 2 = ((b / 2 : Nat) : Int) := by omega
    have a3 : (b:Int) % 2 = ((b % 2 : Nat) : Int) := by omega
    dsimp only
    rw [a1, a2, a3]
    constructor
    · rintro ⟨x, y⟩
      refine ⟨?_, y⟩
      rw [x]
      split_ifs <;> first | rfl | omega
    · rintro ⟨x, y⟩
      refine ⟨?_, y⟩
      rw [x]
      split_ifs <;> first | rfl | omega
  have e : l = (l.map Int.toNat).map fun (b : Nat) => (b:Int) := by
    rw [List.map_map]
    conv_lhs => rw [← List.map_id l]
    apply List.map_congr_left
    intro b hb
    have := ((h3 b).1 hb).1
    simp; omega
  have hnd : (l.map Int.toNat).Nodup := by
    have : l.Nodup := h2.imp (fun h => by omega)
    rw [e] at this
    exact List.Nodup.of_map _ this
  rw [e, List.map_map]
  refine sum_filter_perm (l.map Int.toNat) (List.range (2 * E.id.length)) hnd List.nodup_range (OnSide E) ?_ _
  intro a
  rw [List.mem_range, List.mem_map]
  constructor
  · rintro ⟨b, hb, rfl⟩
    obtain ⟨c1, c2, c3⟩ := (h3 b).1 hb
    have hb' : b = ((b.toNat : Nat) : Int) := by omega
    rw [hb', hp] at c3
    simp only [Elem.Elem.dim] at c2
    exact ⟨by omega, c3⟩
  · rintro ⟨c1, c2⟩
    refine ⟨(a:Int), (h3 _).2 ⟨by omega, ?_, (hp a).2 c2⟩, by omega⟩
    simp only [Elem.Elem.dim]; omega

/-! ### The loops -/

/-- A callback that fills the `m` entries of the zeroed array it is handed with `R`. -/
def Fills (m : Nat) (cb : P → (Int → V) → Res (Int → V)) (R : P → Int → V) : Prop :=
  ∀ p A, (∀ i : Int, 0 ≤ i → i < m → A i = 0) → ∃ A', cb p A = .ok A' ∧ ∀ i : Int, 0 ≤ i → i < m → A' i = R p i

theorem setArr_self (W : Nat → Int → V) (k : Nat) (A : Int → V) : setArr W k A k = A := if_pos rfl

theorem vecPoints_ok (E : Elt V P) {cb : P → (Int → V) → Res (Int → V)} {R : P → Int → V} (h : Fills E.m cb R) :
    ∀ (qs : List (QP V P)) (index : Int), 0 ≤ index → ∀ (pw : PWork V) (F : Int → V), ∃ pw',
      vecPoints E cb index qs pw F = .ok (pw', fun i => if 0 ≤ i ∧ i < E.m then F i + pointSum qs (fun p => R p i) else F i) := by
  intro qs
  induction qs with
  | nil => intro index _ pw F; exact ⟨pw, by simp [vecPoints, pointSum]⟩
  | cons q qs ih =>
    intro index hi pw F
    obtain ⟨w', a1, _, _, a4, _, _⟩ := (C79_point E index (nextPoint pw)).1 hi (show (0:Nat) < 8 by omega)
    obtain ⟨R', b1, b2⟩ := h q.data (w'.wvec 0) (fun i h0 h1 => a4 i h0 (by simpa [Elt.m] using h1))
    obtain ⟨pw'', c⟩ := ih (index+1) (by omega) { w' with wvec := setArr w'.wvec 0 R' }
      (fun i => if 0 ≤ i ∧ i < E.m then F i + R' i * (q.detJac * q.weight) else F i)
    refine ⟨pw'', ?_⟩
    have a1' : pointGetWorkVec E index (nextPoint pw) = .ok (0, w') := a1
    simp only [vecPoints, a1', Res.bind, b1, addArray, if_neg (show ¬ index < 0 by omega), setArr_self]
    rw [c]
    congr 2
    funext i
    by_cases hm : 0 ≤ i ∧ i < E.m
    · rw [if_pos hm, if_pos hm, if_pos hm, b2 i hm.1 hm.2]
      simp only [pointSum, List.map_cons, List.sum_cons]
      ring
    · rw [if_neg hm, if_neg hm, if_neg hm]

theorem vecForms_ok (E : Elt V P) {cb : P → (Int → V) → Res (Int → V)} {R : P → Int → V} (h : Fills E.m cb R) :
    ∀ (bs : List (Option Int)) (pw : PWork V) (F : Int → V), ∃ pw', vecForms E cb bs pw F = .ok (pw', fun i =>
      if 0 ≤ i ∧ i < E.m then F i + (bs.map fun b => pointSum (E.points b) (fun p => R p i)).sum else F i) := by
  intro bs
  induction bs with
  | nil => intro pw F; exact ⟨pw, by simp [vecForms]⟩
  | cons b bs ih =>
    intro pw F
    obtain ⟨w', a⟩ := vecPoints_ok E h (E.points b) 0 (le_refl _) pw F
    obtain ⟨pw', c⟩ := ih w' (fun i => if 0 ≤ i ∧ i < E.m then F i + pointSum (E.points b) (fun p => R p i) else F i)
    refine ⟨pw', ?_⟩
    simp only [vecForms, a, Res.bind]
    rw [c]
    congr 2
    funext i
    by_cases hm : 0 ≤ i ∧ i < E.m
    · rw [if_pos hm, if_pos hm, if_pos hm, List.map_cons, List.sum_cons, add_assoc]
    · rw [if_neg hm, if_neg hm, if_neg hm]

theorem runVec_ok (E : Elt V P) {cb : P → (Int → V) → Res (Int → V)} {R : P → Int → V} (h : Fills E.m cb R) (k : Nat)
    (pw : PWork V) (w : Work V) : runVec E cb k pw w = .ok { w with wvec := setArr w.wvec k (fun i =>
      if 0 ≤ i ∧ i < E.m then w.wvec k i + integral E (fun p => R p i) else w.wvec k i) } := by
  obtain ⟨pw', a⟩ := vecForms_ok E h (visits E) pw (w.wvec k)
  simp only [runVec, a, Res.bind]
  congr 3
  funext i
  rw [visits_sum]
  rfl

theorem matPoints_ok (E : Elt V P) {cb : P → (Int → V) → Res (Int → V)} {R : P → Int → V} (h : Fills (E.m * E.n) cb R) :
    ∀ (qs : List (QP V P)) (index : Int), 0 ≤ index → ∀ (pw : PWork V) (J : Int → V), ∃ pw',
      matPoints E cb index qs pw J =
        .ok (pw', fun i => if 0 ≤ i ∧ i < (E.m * E.n : Nat) then J i + pointSum qs (fun p => R p i) else J i) := by
  intro qs
  induction qs with
  | nil => intro index _ pw J; exact ⟨pw, by simp [matPoints, pointSum]⟩
  | cons q qs ih =>
    intro index hi pw J
    obtain ⟨w', a1, _, _, a4, _, _⟩ := (C79_point E index (nextPoint pw)).2.1 hi (show (0:Nat) < 4 by omega)
    obtain ⟨R', b1, b2⟩ := h q.data (w'.wmat 0) (fun i h0 h1 => a4 i h0 h1)
    obtain ⟨pw'', c⟩ := ih (index+1) (by omega) { w' with wmat := setArr w'.wmat 0 R' }
      (fun i => if 0 ≤ i ∧ i < (E.m * E.n : Nat) then J i + R' i * (q.detJac * q.weight) else J i)
    refine ⟨pw'', ?_⟩
    have a1' : pointGetWorkMat E index (nextPoint pw) = .ok (0, w') := a1
    simp only [matPoints, a1', Res.bind, b1, addArray, if_neg (show ¬ index < 0 by omega), setArr_self]
    rw [c]
    congr 2
    funext i
    by_cases hm : 0 ≤ i ∧ i < (E.m * E.n : Nat)
    · rw [if_pos hm, if_pos hm, if_pos hm, b2 i hm.1 hm.2]
      simp only [pointSum, List.map_cons, List.sum_cons]
      ring
    · rw [if_neg hm, if_neg hm, if_neg hm]

theorem matForms_ok (E : Elt V P) {cb : P → (Int → V) → Res (Int → V)} {R : P → Int → V} (h : Fills (E.m * E.n) cb R) :
    ∀ (bs : List (Option Int)) (pw : PWork V) (J : Int → V), ∃ pw', matForms E cb bs pw J = .ok (pw', fun i =>
      if 0 ≤ i ∧ i < (E.m * E.n : Nat) then J i + (bs.map fun b => pointSum (E.points b) (fun p => R p i)).sum else J i) := by
  intro bs
  induction bs with
  | nil => intro pw J; exact ⟨pw, by simp [matForms]⟩
  | cons b bs ih =>
    intro pw J
    obtain ⟨w', a⟩ := matPoints_ok E h (E.points b) 0 (le_refl _) pw J
    obtain ⟨pw', c⟩ := ih w' (fun i => if 0 ≤ i ∧ i < (E.m * E.n : Nat) then J i + pointSum (E.points b) (fun p => R p i) else J i)
    refine ⟨pw', ?_⟩
    simp only [matForms, a, Res.bind]
    rw [c]
    congr 2
    funext i
    by_cases hm : 0 ≤ i ∧ i < (E.m * E.n : Nat)
    · rw [if_pos hm, if_pos hm, if_pos hm, List.map_cons, List.sum_cons, add_assoc]
    · rw [if_neg hm, if_neg hm, if_neg hm]

theorem runMat_ok (E : Elt V P) {cb : P → (Int → V) → Res (Int → V)} {R : P → Int → V} (h : Fills (E.m * E.n) cb R) (k : Nat)
    (pw : PWork V) (w : Work V) : runMat E cb k pw w = .ok { w with wmat := setArr w.wmat k (fun i =>
      if 0 ≤ i ∧ i < (E.m * E.n : Nat) then w.wmat k i + integral E (fun p => R p i) else w.wmat k i) } := by
  obtain ⟨pw', a⟩ := matForms_ok E h (visits E) pw (w.wmat k)
  simp only [runMat, a, Res.bind]
  congr 3
  funext i
  rw [visits_sum]
  rfl

/-! ### C77: the drivers -/

/-- The values of the element with the prescribed ones in place of the constrained ones. -/
def withValues (E : Elt V P) (U : List V) : List V :=
  (List.range E.n).map fun (i : Nat) => (tableGet E.fixes.fix i).getD (U.getD i 0)

/-- The rates of the element with zero in place of the constrained ones. -/
def withoutRates (E : Elt V P) (U : List V) : List V :=
  (List.range E.n).map fun (i : Nat) => if (tableGet E.fixes.fix i).isSome then 0 else U.getD i 0

/-- The lists built by `IGAElementBuildFix` (`build_good`), inside the element loop of a Galerkin discretisation. -/
structure Ready (E : Elt V P) : Prop where
  index : 0 ≤ E.index
  galerkin : E.neq = E.nen
  fix : Good E.n E.fixes.fix
  flux : Good E.n E.fixes.flux

/-- Element vector of a residual: `u - v` at constrained unknowns, the integral minus the load at the others. -/
def IsResidual (E : Elt V P) (U : List V) (R : P → Int → V) (F : Int → V) : Prop :=
  ∀ i : Nat, i < E.n → F i = match tableGet E.fixes.fix i with
    | some v => U.getD i 0 - v
    | none => integral E (fun p => R p i) - (tableGet E.fixes.flux i).getD 0

/-- Element matrix of a Jacobian: rows and columns of the identity at constrained unknowns, the integral elsewhere. -/
def IsJacobian (E : Elt V P) (K : P → Int → V) (J : Int → V) : Prop :=
  ∀ i j : Nat, i < E.n → j < E.n → J (i * E.n + j) =
    if (tableGet E.fixes.fix i).isSome ∨ (tableGet E.fixes.fix j).isSome then (if i = j then 1 else 0)
    else integral E (fun p => K p (i * E.n + j))

theorem Ready.m_eq {E : Elt V P} (h : Ready E) : E.m = E.n := by unfold Elt.m Elt.n; rw [h.galerkin]

theorem isSome_iff {l : List (Int × V)} {i : Int} : (tableGet l i).isSome = true ↔ Fixed l i := by
  rw [Option.isSome_iff_ne_none, ne_eq, tableGet_none, not_not]

theorem delValues_eq (fix : List (Int × V)) : ∀ (U : Int → V) (j : Int),
    delValues fix U j = if (tableGet fix j).isSome then 0 else U j := by
  induction fix with
  | nil => intro U j; simp [delValues, tableGet]
  | cons p fix ih =>
    intro U j
    have := ih (Grid.upd U p.1 0) j
    unfold delValues at this ⊢
    rw [List.foldl_cons, this]
    by_cases h : j = p.1
    · subst h; simp only [Grid.upd, if_true, tableGet, List.find?_cons, beq_self_eq_true, Option.map_some, Option.isSome_some]
      split_ifs <;> rfl
    · have hb : (p.1 == j) = false := by simpa using fun h' => h h'.symm
      simp only [Grid.upd, tableGet, List.find?_cons, hb, if_neg h]

/-- The array filled by `IGAElementGetValues`. -/
def loaded (E : Elt V P) (l : List V) (A : Int → V) : Int → V :=
  fun i => if 0 ≤ i ∧ i < E.n then l.getD i.toNat 0 else A i

theorem getWorkVec_next {E : Elt V P} (h : 0 ≤ E.index) (w : Work V) : getWorkVec E (nextElement w) =
    .ok (0, ⟨0, w.wval, 1, setArr w.wvec 0 (zeroed E.m (w.wvec 0)), 0, w.wmat, w.ufix⟩) := by
  simp [getWorkVec, nextElement, show ¬ E.index < 0 by omega]

theorem getWorkMat_next {E : Elt V P} (h : 0 ≤ E.index) (w : Work V) : getWorkMat E (nextElement w) =
    .ok (0, ⟨0, w.wval, 0, w.wvec, 1, setArr w.wmat 0 (zeroed (E.m * E.n) (w.wmat 0)), w.ufix⟩) := by
  simp [getWorkMat, nextElement, show ¬ E.index < 0 by omega]

theorem getValues_ok {E : Elt V P} (h : 0 ≤ E.index) (l : List V) (k : Nat) (hk : k < 8) (a : Nat → Int → V) (b c d e f) :
    getValues E (some l) ⟨k, a, b, c, d, e, f⟩ = .ok (k, ⟨k+1, setArr a k (loaded E l (a k)), b, c, d, e, f⟩) := by
  simp only [getValues, if_neg (show ¬ E.index < 0 by omega), ge_iff_le, if_neg (Nat.not_le.2 hk)]
  rfl

theorem loaded_eq (E : Elt V P) (l : List V) (A : Int → V) {i : Nat} (hi : i < E.n) : loaded E l A i = l.getD i 0 := by
  unfold loaded
  rw [if_pos ⟨by omega, by exact_mod_cast hi⟩]
  simp

/-- Reading an array after `IGAElementFixValues`. -/
theorem read_fixed (E : Elt V P) (h : Ready E) (U : List V) (A : Int → V) (w : Work V) (k : Nat)
    (hw : w.wval k = (fixValues E.fixes.fix (loaded E U A)).2) : read E w k = withValues E U := by
  unfold read withValues
  apply List.map_congr_left
  intro i hi
  rw [List.mem_range] at hi
  rw [hw, (C35_fixValues E.n _ h.fix _).2, loaded_eq E U A hi]

/-- Reading an array after `IGAElementDelValues`. -/
theorem read_deleted (E : Elt V P) (U : List V) (A : Int → V) (w : Work V) (k : Nat)
    (hw : w.wval k = delValues E.fixes.fix (loaded E U A)) : read E w k = withoutRates E U := by
  unfold read withoutRates
  apply List.map_congr_left
  intro i hi
  rw [List.mem_range] at hi
  rw [hw, delValues_eq, loaded_eq E U A hi]

theorem vec_tail (E : Elt V P) (h : Ready E) {cb : P → (Int → V) → Res (Int → V)} {R : P → Int → V} (hc : Fills E.m cb R)
    (U : List V) (A : Int → V) (k : Nat) (pw : PWork V) (w : Work V)
    (hz : ∀ i : Int, 0 ≤ i → i < E.m → w.wvec k i = 0) (hu : w.ufix = (fixValues E.fixes.fix (loaded E U A)).1) :
    ∃ F, ((runVec E cb k pw w).bind fun w => Res.ok ((fixFun E k w).wvec k)) = .ok F ∧ IsResidual E U R F := by
  rw [runVec_ok E hc]
  refine ⟨_, rfl, ?_⟩
  intro i hi
  simp only [fixFun, setArr_self]
  rw [hu, C35_fixFunction E.n E.fixes h.fix h.flux]
  have him : 0 ≤ (i:Int) ∧ (i:Int) < E.m := ⟨by omega, by rw [h.m_eq]; exact_mod_cast hi⟩
  rw [loaded_eq E U A hi, if_pos him, hz _ him.1 him.2, zero_add]
  rfl

theorem mat_tail (E : Elt V P) (h : Ready E) {cb : P → (Int → V) → Res (Int → V)} {R : P → Int → V}
    (hc : Fills (E.m * E.n) cb R) (k : Nat) (pw : PWork V) (w : Work V)
    (hz : ∀ i : Int, 0 ≤ i → i < (E.m * E.n : Nat) → w.wmat k i = 0) :
    ∃ J, ((runMat E cb k pw w).bind fun w => Res.ok ((fixJac E k w).wmat k)) = .ok J ∧ IsJacobian E R J := by
  rw [runMat_ok E hc]
  refine ⟨_, rfl, ?_⟩
  intro i j hi hj
  simp only [fixJac, setArr_self]
  rw [h.m_eq] at hz ⊢
  rw [(C35_fixJacobian E.n E.fixes.fix h.fix _).1 i j ⟨by omega, by omega⟩ ⟨by omega, by omega⟩]
  have hb : 0 ≤ ((i:Int) * E.n + j) ∧ ((i:Int) * E.n + j) < (E.n * E.n : Nat) := by
    refine ⟨by positivity, ?_⟩
    have : i * E.n + j < E.n * E.n := by nlinarith
    exact_mod_cast this
  rw [if_pos hb, hz _ hb.1 hb.2, zero_add]
  by_cases hf : Fixed E.fixes.fix i ∨ Fixed E.fixes.fix j
  · have hf' : (tableGet E.fixes.fix i).isSome = true ∨ (tableGet E.fixes.fix j).isSome = true := by
      simpa only [isSome_iff] using hf
    rw [if_pos hf, if_pos hf']
    by_cases hij : i = j
    · rw [if_pos hij, if_pos (by omega)]
    · rw [if_neg hij, if_neg (by omega)]
  · have hf' : ¬ ((tableGet E.fixes.fix i).isSome = true ∨ (tableGet E.fixes.fix j).isSome = true) := by
      simpa only [isSome_iff] using hf
    rw [if_neg hf, if_neg hf']

theorem zeroed_eq (m : Nat) (A : Int → V) (i : Int) (h0 : 0 ≤ i) (h1 : i < m) : zeroed m A i = 0 := if_pos ⟨h0, h1⟩

/-- **C77**, `IGAComputeFunction`: the residual callback sees the prescribed values at the constrained unknowns; the
element vector is the integral of what it returns over interior and sides, minus the loads, and `u - v` in constrained
rows — whatever the work arrays contained before. -/
theorem C77_function (E : Elt V P) (h : Ready E) (cb : P → List V → (Int → V) → Res (Int → V)) (R : P → List V → Int → V)
    (hc : ∀ U, Fills E.m (fun p => cb p U) (fun p => R p U)) (U : List V) (pw : PWork V) (w : Work V) :
    ∃ F, function E cb U pw w = .ok F ∧ IsResidual E U (fun p => R p (withValues E U)) F := by
  simp only [function, getWorkVec_next h.index, Res.bind, getValues_ok h.index _ 0 (by omega)]
  rw [read_fixed E h U (w.wval 0) _ 0 (by simp only [fixVals, setArr_self])]
  exact vec_tail E h (hc _) U (w.wval 0) 0 pw _ (fun i h0 h1 => zeroed_eq _ _ i h0 h1) (by simp only [fixVals, setArr_self])

/-- **C77**, `IGAComputeJacobian`. -/
theorem C77_jacobian (E : Elt V P) (h : Ready E) (cb : P → List V → (Int → V) → Res (Int → V)) (K : P → List V → Int → V)
    (hc : ∀ U, Fills (E.m * E.n) (fun p => cb p U) (fun p => K p U)) (U : List V) (pw : PWork V) (w : Work V) :
    ∃ J, jacobian E cb U pw w = .ok J ∧ IsJacobian E (fun p => K p (withValues E U)) J := by
  simp only [jacobian, getWorkMat_next h.index, Res.bind, getValues_ok h.index _ 0 (by omega)]
  rw [read_fixed E h U (w.wval 0) _ 0 (by simp only [fixVals, setArr_self])]
  exact mat_tail E h (hc _) 0 pw _ (fun i h0 h1 => zeroed_eq _ _ i h0 h1)

/-- **C77**, `IGAComputeIFunction`: moreover the rates are zero at the constrained unknowns. -/
theorem C77_ifunction (E : Elt V P) (h : Ready E) (cb : P → V → List V → V → List V → (Int → V) → Res (Int → V))
    (R : P → V → List V → V → List V → Int → V)
    (hc : ∀ a X t U, Fills E.m (fun p => cb p a X t U) (fun p => R p a X t U)) (a : V) (X : List V) (t : V) (U : List V)
    (pw : PWork V) (w : Work V) :
    ∃ F, ifunction E cb a X t U pw w = .ok F ∧ IsResidual E U (fun p => R p a (withoutRates E X) t (withValues E U)) F := by
  simp only [ifunction, getWorkVec_next h.index, Res.bind, getValues_ok h.index _ 0 (by omega), getValues_ok h.index _ 1 (by omega)]
  rw [read_deleted E X (w.wval 0) _ 0 (by simp [fixVals, delVals, setArr]),
    read_fixed E h U (w.wval 1) _ 1 (by simp [fixVals, delVals, setArr])]
  exact vec_tail E h (hc _ _ _ _) U (w.wval 1) 0 pw _ (fun i h0 h1 => zeroed_eq _ _ i h0 h1) (by simp [fixVals, delVals, setArr])

/-- **C77**, `IGAComputeIJacobian`. -/
theorem C77_ijacobian (E : Elt V P) (h : Ready E) (cb : P → V → List V → V → List V → (Int → V) → Res (Int → V))
    (K : P → V → List V → V → List V → Int → V)
    (hc : ∀ a X t U, Fills (E.m * E.n) (fun p => cb p a X t U) (fun p => K p a X t U)) (a : V) (X : List V) (t : V) (U : List V)
    (pw : PWork V) (w : Work V) :
    ∃ J, ijacobian E cb a X t U pw w = .ok J ∧ IsJacobian E (fun p => K p a (withoutRates E X) t (withValues E U)) J := by
  simp only [ijacobian, getWorkMat_next h.index, Res.bind, getValues_ok h.index _ 0 (by omega), getValues_ok h.index _ 1 (by omega)]
  rw [read_deleted E X (w.wval 0) _ 0 (by simp [fixVals, delVals, setArr]),
    read_fixed E h U (w.wval 1) _ 1 (by simp [fixVals, delVals, setArr])]
  exact mat_tail E h (hc _ _ _ _) 0 pw _ (fun i h0 h1 => zeroed_eq _ _ i h0 h1)

/-- **C77**, `IGAComputeIEFunction`: prescribed values in both states, and the constrained rows use the new state. -/
theorem C77_iefunction (E : Elt V P) (h : Ready E) (cb : P → V → List V → V → List V → V → List V → (Int → V) → Res (Int → V))
    (R : P → V → List V → V → List V → V → List V → Int → V)
    (hc : ∀ a X t U t0 U0, Fills E.m (fun p => cb p a X t U t0 U0) (fun p => R p a X t U t0 U0))
    (a : V) (X : List V) (t : V) (U : List V) (t0 : V) (U0 : List V) (pw : PWork V) (w : Work V) :
    ∃ F, iefunction E cb a X t U t0 U0 pw w = .ok F ∧
      IsResidual E U (fun p => R p a (withoutRates E X) t (withValues E U) t0 (withValues E U0)) F := by
  simp only [iefunction, getWorkVec_next h.index, Res.bind, getValues_ok h.index _ 0 (by omega), getValues_ok h.index _ 1 (by omega),
    getValues_ok h.index _ 2 (by omega)]
  rw [read_deleted E X (w.wval 0) _ 0 (by simp [fixVals, delVals, setArr]),
    read_fixed E h U (w.wval 1) _ 1 (by simp [fixVals, delVals, setArr]),
    read_fixed E h U0 (w.wval 2) _ 2 (by simp [fixVals, delVals, setArr])]
  exact vec_tail E h (hc _ _ _ _ _ _) U (w.wval 1) 0 pw _ (fun i h0 h1 => zeroed_eq _ _ i h0 h1)
    (by simp [fixVals, delVals, setArr])

/-- **C77**, `IGAComputeIEJacobian`. -/
theorem C77_iejacobian (E : Elt V P) (h : Ready E) (cb : P → V → List V → V → List V → V → List V → (Int → V) → Res (Int → V))
    (K : P → V → List V → V → List V → V → List V → Int → V)
    (hc : ∀ a X t U t0 U0, Fills (E.m * E.n) (fun p => cb p a X t U t0 U0) (fun p => K p a X t U t0 U0))
    (a : V) (X : List V) (t : V) (U : List V) (t0 : V) (U0 : List V) (pw : PWork V) (w : Work V) :
    ∃ J, iejacobian E cb a X t U t0 U0 pw w = .ok J ∧
      IsJacobian E (fun p => K p a (withoutRates E X) t (withValues E U) t0 (withValues E U0)) J := by
  simp only [iejacobian, getWorkMat_next h.index, Res.bind, getValues_ok h.index _ 0 (by omega), getValues_ok h.index _ 1 (by omega),
    getValues_ok h.index _ 2 (by omega)]
  rw [read_deleted E X (w.wval 0) _ 0 (by simp [fixVals, delVals, setArr]),
    read_fixed E h U (w.wval 1) _ 1 (by simp [fixVals, delVals, setArr]),
    read_fixed E h U0 (w.wval 2) _ 2 (by simp [fixVals, delVals, setArr])]
  exact mat_tail E h (hc _ _ _ _ _ _) 0 pw _ (fun i h0 h1 => zeroed_eq _ _ i h0 h1)

/-- **C77**, `IGAComputeRHSFunction`. -/
theorem C77_rhsfunction (E : Elt V P) (h : Ready E) (cb : P → V → List V → (Int → V) → Res (Int → V))
    (R : P → V → List V → Int → V) (hc : ∀ t U, Fills E.m (fun p => cb p t U) (fun p => R p t U)) (t : V) (U : List V)
    (pw : PWork V) (w : Work V) :
    ∃ F, rhsfunction E cb t U pw w = .ok F ∧ IsResidual E U (fun p => R p t (withValues E U)) F := by
  simp only [rhsfunction, getWorkVec_next h.index, Res.bind, getValues_ok h.index _ 0 (by omega)]
  rw [read_fixed E h U (w.wval 0) _ 0 (by simp only [fixVals, setArr_self])]
  exact vec_tail E h (hc _ _) U (w.wval 0) 0 pw _ (fun i h0 h1 => zeroed_eq _ _ i h0 h1) (by simp only [fixVals, setArr_self])

/-- **C77**, `IGAComputeRHSJacobian`. -/
theorem C77_rhsjacobian (E : Elt V P) (h : Ready E) (cb : P → V → List V → (Int → V) → Res (Int → V))
    (K : P → V → List V → Int → V) (hc : ∀ t U, Fills (E.m * E.n) (fun p => cb p t U) (fun p => K p t U)) (t : V) (U : List V)
    (pw : PWork V) (w : Work V) :
    ∃ J, rhsjacobian E cb t U pw w = .ok J ∧ IsJacobian E (fun p => K p t (withValues E U)) J := by
  simp only [rhsjacobian, getWorkMat_next h.index, Res.bind, getValues_ok h.index _ 0 (by omega)]
  rw [read_fixed E h U (w.wval 0) _ 0 (by simp only [fixVals, setArr_self])]
  exact mat_tail E h (hc _ _) 0 pw _ (fun i h0 h1 => zeroed_eq _ _ i h0 h1)

/-- **C77**, `IGAComputeI2Function`: velocities and accelerations are zero at the constrained unknowns. -/
theorem C77_i2function (E : Elt V P) (h : Ready E) (cb : P → V → List V → V → List V → V → List V → (Int → V) → Res (Int → V))
    (R : P → V → List V → V → List V → V → List V → Int → V)
    (hc : ∀ a X v Y t U, Fills E.m (fun p => cb p a X v Y t U) (fun p => R p a X v Y t U))
    (a : V) (X : List V) (v : V) (Y : List V) (t : V) (U : List V) (pw : PWork V) (w : Work V) :
    ∃ F, i2function E cb a X v Y t U pw w = .ok F ∧
      IsResidual E U (fun p => R p a (withoutRates E X) v (withoutRates E Y) t (withValues E U)) F := by
  simp only [i2function, getWorkVec_next h.index, Res.bind, getValues_ok h.index _ 0 (by omega), getValues_ok h.index _ 1 (by omega),
    getValues_ok h.index _ 2 (by omega)]
  rw [read_deleted E X (w.wval 0) _ 0 (by simp [fixVals, delVals, setArr]),
    read_deleted E Y (w.wval 1) _ 1 (by simp [fixVals, delVals, setArr]),
    read_fixed E h U (w.wval 2) _ 2 (by simp [fixVals, delVals, setArr])]
  exact vec_tail E h (hc _ _ _ _ _ _) U (w.wval 2) 0 pw _ (fun i h0 h1 => zeroed_eq _ _ i h0 h1)
    (by simp [fixVals, delVals, setArr])

/-- **C77**, `IGAComputeI2Jacobian`. -/
theorem C77_i2jacobian (E : Elt V P) (h : Ready E) (cb : P → V → List V → V → List V → V → List V → (Int → V) → Res (Int → V))
    (K : P → V → List V → V → List V → V → List V → Int → V)
    (hc : ∀ a X v Y t U, Fills (E.m * E.n) (fun p => cb p a X v Y t U) (fun p => K p a X v Y t U))
    (a : V) (X : List V) (v : V) (Y : List V) (t : V) (U : List V) (pw : PWork V) (w : Work V) :
    ∃ J, i2jacobian E cb a X v Y t U pw w = .ok J ∧
      IsJacobian E (fun p => K p a (withoutRates E X) v (withoutRates E Y) t (withValues E U)) J := by
  simp only [i2jacobian, getWorkMat_next h.index, Res.bind, getValues_ok h.index _ 0 (by omega), getValues_ok h.index _ 1 (by omega),
    getValues_ok h.index _ 2 (by omega)]
  rw [read_deleted E X (w.wval 0) _ 0 (by simp [fixVals, delVals, setArr]),
    read_deleted E Y (w.wval 1) _ 1 (by simp [fixVals, delVals, setArr]),
    read_fixed E h U (w.wval 2) _ 2 (by simp [fixVals, delVals, setArr])]
  exact mat_tail E h (hc _ _ _ _ _ _) 0 pw _ (fun i h0 h1 => zeroed_eq _ _ i h0 h1)

/-- **C77**, `IGAComputeVector`: the integral, no boundary conditions. -/
theorem C77_vector (E : Elt V P) (h : Ready E) (cb : P → (Int → V) → Res (Int → V)) (R : P → Int → V) (hc : Fills E.m cb R)
    (pw : PWork V) (w : Work V) :
    ∃ F, vector E cb pw w = .ok F ∧ ∀ i : Nat, i < E.n → F i = integral E (fun p => R p i) := by
  simp only [vector, getWorkVec_next h.index, Res.bind, runVec_ok E hc, setArr_self]
  refine ⟨_, rfl, fun i hi => ?_⟩
  have him : 0 ≤ (i:Int) ∧ (i:Int) < E.m := ⟨by omega, by rw [h.m_eq]; exact_mod_cast hi⟩
  rw [if_pos him, zeroed_eq _ _ _ him.1 him.2, zero_add]

/-- **C77**, `IGAComputeMatrix`: the integral, no boundary conditions. -/
theorem C77_matrix (E : Elt V P) (h : Ready E) (cb : P → (Int → V) → Res (Int → V)) (K : P → Int → V)
    (hc : Fills (E.m * E.n) cb K) (pw : PWork V) (w : Work V) :
    ∃ A, matrix E cb pw w = .ok A ∧ ∀ i j : Nat, i < E.n → j < E.n → A (i * E.n + j) = integral E (fun p => K p (i * E.n + j)) := by
  simp only [matrix, getWorkMat_next h.index, Res.bind, runMat_ok E hc, setArr_self]
  refine ⟨_, rfl, fun i j hi hj => ?_⟩
  have hb : 0 ≤ ((i:Int) * E.n + j) ∧ ((i:Int) * E.n + j) < (E.m * E.n : Nat) := by
    refine ⟨by positivity, ?_⟩
    rw [h.m_eq]
    have : i * E.n + j < E.n * E.n := by nlinarith
    exact_mod_cast this
  rw [if_pos hb, zeroed_eq _ _ _ hb.1 hb.2, zero_add]

/-- A callback that fills a matrix and a vector. -/
def FillsSys (m n : Nat) (cb : P → (Int → V) → (Int → V) → Res ((Int → V) × (Int → V))) (K R : P → Int → V) : Prop :=
  ∀ p A B, (∀ i : Int, 0 ≤ i → i < (m * n : Nat) → A i = 0) → (∀ i : Int, 0 ≤ i → i < m → B i = 0) →
    ∃ A' B', cb p A B = .ok (A', B') ∧ (∀ i : Int, 0 ≤ i → i < (m * n : Nat) → A' i = K p i) ∧
      ∀ i : Int, 0 ≤ i → i < m → B' i = R p i

theorem sysPoints_ok (E : Elt V P) {cb : P → (Int → V) → (Int → V) → Res ((Int → V) × (Int → V))} {K R : P → Int → V}
    (h : FillsSys E.m E.n cb K R) : ∀ (qs : List (QP V P)) (index : Int), 0 ≤ index → ∀ (pw : PWork V) (A B : Int → V), ∃ pw',
      sysPoints E cb index qs pw A B =
        .ok (pw', (fun i => if 0 ≤ i ∧ i < (E.m * E.n : Nat) then A i + pointSum qs (fun p => K p i) else A i),
          fun i => if 0 ≤ i ∧ i < E.m then B i + pointSum qs (fun p => R p i) else B i) := by
  intro qs
  induction qs with
  | nil => intro index _ pw A B; exact ⟨pw, by simp [sysPoints, pointSum]⟩
  | cons q qs ih =>
    intro index hi pw A B
    obtain ⟨w1, a1, _, a3, a4, _, _⟩ := (C79_point E index (nextPoint pw)).2.1 hi (show (0:Nat) < 4 by omega)
    obtain ⟨w2, b1, _, _, b4, _, b6⟩ := (C79_point E index w1).1 hi (by rw [a3]; show (0:Nat) < 8; omega)
    obtain ⟨A', B', c1, c2, c3⟩ := h q.data (w2.wmat 0) (w2.wvec w1.nvec) (fun i h0 h1 => by rw [b6]; exact a4 i h0 h1)
      (fun i h0 h1 => b4 i h0 h1)
    obtain ⟨pw'', c⟩ := ih (index+1) (by omega) { w2 with wmat := setArr w2.wmat 0 A', wvec := setArr w2.wvec w1.nvec B' }
      (fun i => if 0 ≤ i ∧ i < (E.m * E.n : Nat) then A i + A' i * (q.detJac * q.weight) else A i)
      (fun i => if 0 ≤ i ∧ i < E.m then B i + B' i * (q.detJac * q.weight) else B i)
    refine ⟨pw'', ?_⟩
    have a1' : pointGetWorkMat E index (nextPoint pw) = .ok (0, w1) := a1
    simp only [sysPoints, a1', b1, Res.bind, c1, addArray, if_neg (show ¬ index < 0 by omega), setArr_self]
    rw [c]
    congr 3
    · funext i
      by_cases hm : 0 ≤ i ∧ i < (E.m * E.n : Nat)
      · rw [if_pos hm, if_pos hm, if_pos hm, c2 i hm.1 hm.2]
        simp only [pointSum, List.map_cons, List.sum_cons]
        ring
      · rw [if_neg hm, if_neg hm, if_neg hm]
    · funext i
      by_cases hm : 0 ≤ i ∧ i < E.m
      · rw [if_pos hm, if_pos hm, if_pos hm, c3 i hm.1 hm.2]
        simp only [pointSum, List.map_cons, List.sum_cons]
        ring
      · rw [if_neg hm, if_neg hm, if_neg hm]

theorem sysForms_ok (E : Elt V P) {cb : P → (Int → V) → (Int → V) → Res ((Int → V) × (Int → V))} {K R : P → Int → V}
    (h : FillsSys E.m E.n cb K R) : ∀ (bs : List (Option Int)) (pw : PWork V) (A B : Int → V), ∃ pw',
      sysForms E cb bs pw A B = .ok (pw',
        (fun i => if 0 ≤ i ∧ i < (E.m * E.n : Nat) then A i + (bs.map fun b => pointSum (E.points b) (fun p => K p i)).sum else A i),
        fun i => if 0 ≤ i ∧ i < E.m then B i + (bs.map fun b => pointSum (E.points b) (fun p => R p i)).sum else B i) := by
  intro bs
  induction bs with
  | nil => intro pw A B; exact ⟨pw, by simp [sysForms]⟩
  | cons b bs ih =>
    intro pw A B
    obtain ⟨w', a⟩ := sysPoints_ok E h (E.points b) 0 (le_refl _) pw A B
    obtain ⟨pw', c⟩ := ih w' _ _
    refine ⟨pw', ?_⟩
    simp only [sysForms, a, Res.bind]
    rw [c]
    congr 3
    · funext i
      by_cases hm : 0 ≤ i ∧ i < (E.m * E.n : Nat)
      · rw [if_pos hm, if_pos hm, if_pos hm, List.map_cons, List.sum_cons, add_assoc]
      · rw [if_neg hm, if_neg hm, if_neg hm]
    · funext i
      by_cases hm : 0 ≤ i ∧ i < E.m
      · rw [if_pos hm, if_pos hm, if_pos hm, List.map_cons, List.sum_cons, add_assoc]
      · rw [if_neg hm, if_neg hm, if_neg hm]

/-- **C77**, `IGAComputeSystem`: constrained rows and columns of the identity with the prescribed value on the right; in
the other rows the integral of the matrix, and the integral of the vector plus the load, minus what the prescribed values
contribute. -/
theorem C77_system (E : Elt V P) (h : Ready E) (cb : P → (Int → V) → (Int → V) → Res ((Int → V) × (Int → V)))
    (K R : P → Int → V) (hc : FillsSys E.m E.n cb K R) (pw : PWork V) (w : Work V) :
    ∃ A B, system E cb pw w = .ok (A, B) ∧ IsJacobian E K A ∧
      ∀ i : Nat, i < E.n → B i = match tableGet E.fixes.fix i with
        | some v => v
        | none => integral E (fun p => R p i) + (tableGet E.fixes.flux i).getD 0 -
            (E.fixes.fix.map fun q => integral E (fun p => K p (i * E.n + q.1)) * q.2).sum := by
  have e1 : ∀ (a : Nat → Int → V) (b : Nat → Int → V) (c f), getWorkVec E ⟨0, a, 0, b, 1, c, f⟩ =
      .ok (0, ⟨0, a, 1, setArr b 0 (zeroed E.m (b 0)), 1, c, f⟩) := by
    intro a b c f
    simp [getWorkVec, show ¬ E.index < 0 by have := h.index; omega]
  obtain ⟨pw', a⟩ := sysForms_ok E hc (visits E) pw (zeroed (E.m * E.n) (w.wmat 0)) (zeroed E.m (w.wvec 0))
  simp only [system, getWorkMat_next h.index, Res.bind, e1, setArr_self, a, fixSys, visits_sum]
  refine ⟨_, _, rfl, ?_, ?_⟩
  · intro i j hi hj
    rw [h.m_eq, (C34_entries E.n E.fixes h.fix h.flux _ _).1 i j ⟨by omega, by omega⟩ ⟨by omega, by omega⟩]
    have hb : 0 ≤ ((i:Int) * E.n + j) ∧ ((i:Int) * E.n + j) < (E.n * E.n : Nat) := by
      refine ⟨by positivity, ?_⟩
      have : i * E.n + j < E.n * E.n := by nlinarith
      exact_mod_cast this
    rw [if_pos hb, zeroed_eq _ _ _ hb.1 hb.2, zero_add]
    by_cases hf : Fixed E.fixes.fix i ∨ Fixed E.fixes.fix j
    · have hf' : (tableGet E.fixes.fix i).isSome = true ∨ (tableGet E.fixes.fix j).isSome = true := by
        simpa only [isSome_iff] using hf
      rw [if_pos hf, if_pos hf']
      by_cases hij : i = j
      · rw [if_pos hij, if_pos (by omega)]
      · rw [if_neg hij, if_neg (by omega)]
    · have hf' : ¬ ((tableGet E.fixes.fix i).isSome = true ∨ (tableGet E.fixes.fix j).isSome = true) := by
        simpa only [isSome_iff] using hf
      rw [if_neg hf, if_neg hf']
      rfl
  · intro i hi
    rw [h.m_eq, (C34_entries E.n E.fixes h.fix h.flux _ _).2.1 i ⟨by omega, by omega⟩]
    cases tableGet E.fixes.fix i with
    | some v => rfl
    | none =>
      dsimp only
      rw [if_pos (show 0 ≤ (i:Int) ∧ (i:Int) < E.n from ⟨by omega, by omega⟩), zeroed_eq _ _ _ (by omega) (by omega), zero_add]
      congr 2
      apply List.map_congr_left
      intro q hq
      have hr := h.fix.range q.1 (List.mem_map.2 ⟨q, hq, rfl⟩)
      have hb : 0 ≤ ((i:Int) * E.n + q.1) ∧ ((i:Int) * E.n + q.1) < (E.n * E.n : Nat) := by
        refine ⟨by have := hr.1; positivity, ?_⟩
        have h1 : (i:Int) + 1 ≤ E.n := by omega
        push_cast
        nlinarith [hr.2]
      rw [if_pos hb, zeroed_eq _ _ _ hb.1 hb.2, zero_add]
      rfl


/-! ### Non-vacuity -/

/-- A linear element on the low side of a grid of three, one field, the first unknown constrained to 5, a load 7 on the
second, two interior points and a point on side 0. -/
def exElt : Elt Rat Nat where
  index := 0
  neq := 2
  nen := 2
  dof := 1
  fixes := ⟨[(0, 5)], [(1, 7)]⟩
  id := [0]
  sizes := [3]
  visit := fun _ m => m == 0
  points := fun b => match b with
    | none => [⟨1/2, 1, 0⟩, ⟨1/2, 1, 1⟩]
    | some _ => [⟨1, 1, 2⟩]

theorem exElt_ready : Ready exElt where
  index := by decide
  galerkin := rfl
  fix := ⟨by decide, by decide⟩
  flux := ⟨by decide, by decide⟩

/-- A residual callback that uses the values: `R_i = u_0 u_1 + i + point`. -/
def exRes (p : Nat) (U : List Rat) (i : Int) : Rat := U.getD 0 0 * U.getD 1 0 + i + p

theorem exRes_fills (U : List Rat) : Fills exElt.m (fun p A => Res.ok fun i => A i + exRes p U i) (fun p => exRes p U) := by
  intro p A hA
  exact ⟨_, rfl, fun i h0 h1 => by rw [hA i h0 h1, zero_add]⟩

/-- The driver runs on it with non-trivial values: 3 - 5 in the constrained row; in the other row the integral of
`5·4+1+p` over two interior points and the side point minus the load: (21+22)/2 + 23 - 7. -/
example (pw : PWork Rat) (w : Work Rat) : ∃ F, function exElt (fun p U A => .ok fun i => A i + exRes p U i) [3, 4] pw w = .ok F ∧
    F 0 = -2 ∧ F 1 = 75/2 := by
  obtain ⟨F, h1, h2⟩ := C77_function exElt exElt_ready _ exRes exRes_fills [3, 4] pw w
  refine ⟨F, h1, ?_, ?_⟩
  · rw [show (0:Int) = ((0:Nat):Int) from rfl, h2 0 (by decide)]; decide +kernel
  · rw [show (1:Int) = ((1:Nat):Int) from rfl, h2 1 (by decide)]; decide +kernel

/-- Eight vectors, four matrices and eight value arrays in one element, written in between. -/
example (w : Work Rat) : ∃ out w', requests exElt
    (((List.replicate 8 Req.vec) ++ (List.replicate 4 Req.mat) ++ List.replicate 8 Req.val).map fun q =>
      (q, fun w => { w with wvec := fun _ _ => 9 })) (nextElement w) = .ok (out, w') ∧ out.Nodup := by
  obtain ⟨out, w', h1, _, h3, _⟩ := (C79_element exElt (by decide) w
    (((List.replicate 8 Req.vec) ++ (List.replicate 4 Req.mat) ++ List.replicate 8 Req.val).map fun q =>
      (q, fun w => { w with wvec := fun _ _ => 9 })) (by
        intro q hq
        obtain ⟨p, _, rfl⟩ := List.mem_map.1 hq
        intro w q
        cases q <;> rfl)).1 (by
        rw [List.map_map]
        have : (Prod.fst ∘ fun q => ((q, fun w => { w with wvec := fun _ _ => 9 }) : Req × (Work Rat → Work Rat))) = id := rfl
        rw [this, List.map_id]
        intro q; cases q <;> decide)
  exact ⟨out, w', h1, h3⟩

end PetIGA.Drv
