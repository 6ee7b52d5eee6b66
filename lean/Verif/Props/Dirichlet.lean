import Verif.Props.FixSystem
import Verif.Spec.Dirichlet
import Verif.Lemmas.AxisHist
import Mathlib.Algebra.CharZero.Defs
import Mathlib.Algebra.BigOperators.Group.Finset.Sigma
/-! Property theorems about Dirichlet conditions in the assembled system (C36). -/
set_option linter.unusedSectionVars false
namespace PetIGA.Fix
open PetIGA.Form PetIGA.Grid PetIGA.Spec PetIGA.Ax Finset

variable {V : Type}

section Mesh
variable {K : Type} [Field K] [LinearOrder K] [IsStrictOrderedRing K]

/-- The directions of the element `ids` of a grid of axes: `BD[i]->nen = p+1`, `offset = span[id]-p`
(petigabasis.c:177-187, C17), `sizes[i]` the number of elements. -/
def elemDirs (axes : List (Axis K)) (ids : List Int) : List EDir :=
  List.zipWith (fun ax id => ⟨(ax.p + 1).toNat, ax.span.getD id.toNat 0 - ax.p, id, ax.span.length, ax.periodic⟩) axes ids

/-- The grid of nodes of the axes: the first function of the first element and the last of the last. -/
def nodeDirs (axes : List (Axis K)) : List NodeDir :=
  axes.map fun ax => ⟨ax.span.headD 0 - ax.p, ax.span.getLastD 0, ax.periodic⟩

/-- The grid node of local node `x` of an element. -/
def gridNode (ds : List EDir) (x : List Int) : List Int := List.zipWith (fun d xi => d.offset + xi) ds x

/-- One direction: a function of an element is the first (last) of the grid exactly if it is the first (last) of the
first (last) element. -/
theorem end_iff {ax : Axis K} (h : PreWF ax) {id : Int} (hid : 0 ≤ id ∧ id < ax.span.length) {x : Int}
    (hx : 0 ≤ x ∧ x < (ax.p + 1).toNat) :
    ((id = 0 ∧ x = 0) ↔ ax.span.getD id.toNat 0 - ax.p + x = ax.span.headD 0 - ax.p) ∧
    ((id = (ax.span.length : Int) - 1 ∧ x = ((ax.p + 1).toNat : Int) - 1) ↔
      ax.span.getD id.toNat 0 - ax.p + x = ax.span.getLastD 0) := by
  have hpw : ax.span.Pairwise (· < ·) := by
    rw [h.span]
    exact (computeSpans_spec h.legal.sorted h.legal.degree (by have := h.legal.degree; have := h.legal.enough; omega)).2
  have hp := h.legal.degree
  have hne : 0 < ax.span.length := by omega
  have hhead : ax.span.headD 0 = ax.span[0] := by
    rw [List.headD_eq_head?_getD, List.head?_eq_getElem?, List.getElem?_eq_getElem hne]; rfl
  have hlast : ax.span.getLastD 0 = ax.span[ax.span.length - 1] := by
    rw [List.getLastD_eq_getLast?, List.getLast?_eq_getElem?, List.getElem?_eq_getElem (by omega)]; rfl
  have hget : ax.span.getD id.toNat 0 = ax.span[id.toNat]'(by omega) := by
    rw [List.getD_eq_getElem?_getD, List.getElem?_eq_getElem (by omega)]; rfl
  rw [List.pairwise_iff_getElem] at hpw
  have a0 : 0 < id.toNat → ax.span[0] < ax.span[id.toNat]'(by omega) := fun h => hpw 0 id.toNat (by omega) (by omega) h
  have a1 : id.toNat < ax.span.length - 1 → ax.span[id.toNat]'(by omega) < ax.span[ax.span.length - 1] := fun h =>
    hpw id.toNat (ax.span.length - 1) (by omega) (by omega) h
  rw [hhead, hlast, hget]
  constructor
  · constructor
    · rintro ⟨rfl, rfl⟩; simp
    · intro e
      by_cases h0 : id = 0
      · subst h0
        refine ⟨rfl, ?_⟩
        have : ax.span[(0:Int).toNat]'(by omega) = ax.span[0] := rfl
        rw [this] at e; omega
      · have := a0 (by omega); omega
  · constructor
    · rintro ⟨h1, h2⟩
      have e : id.toNat = ax.span.length - 1 := by omega
      have : ax.span[id.toNat]'(by omega) = ax.span[ax.span.length - 1] := by congr 1
      rw [this]; omega
    · intro e
      by_cases h1 : id.toNat < ax.span.length - 1
      · have := a1 h1; omega
      · have e' : id.toNat = ax.span.length - 1 := by omega
        have : ax.span[id.toNat]'(by omega) = ax.span[ax.span.length - 1] := by congr 1
        rw [this] at e
        omega

theorem onSide_grid : ∀ (axes : List (Axis K)) (ids x : List Int), (∀ ax ∈ axes, PreWF ax) →
    List.Forall₂ (fun (ax : Axis K) (id : Int) => 0 ≤ id ∧ id < ax.span.length) axes ids →
    InBox (nens (elemDirs axes ids)) x → ∀ s, OnDomainSide (specDirs (elemDirs axes ids)) x s =
      OnGridSide (nodeDirs axes) (gridNode (elemDirs axes ids) x) s := by
  intro axes
  induction axes with
  | nil => intro ids x _ h hx s; cases h; rfl
  | cons ax axes ih =>
    intro ids x hax hid hx s
    cases hid with
    | cons h1 h2 =>
      rename_i id ids
      have hx' : InBox (((ax.p+1).toNat : Int) :: nens (elemDirs axes ids)) x := hx
      cases hx' with
      | cons g1 g2 =>
        rename_i xi x
        obtain ⟨i, b⟩ := s
        cases i with
        | zero =>
          have := end_iff (hax ax (by simp)) h1 g1
          show (!ax.periodic && (if b then decide (id = (ax.span.length : Int) - 1 ∧ xi = ((ax.p + 1).toNat : Int) - 1)
              else decide (id = 0 ∧ xi = 0))) =
            (!ax.periodic && (if b then decide (ax.span.getD id.toNat 0 - ax.p + xi = ax.span.getLastD 0)
              else decide (ax.span.getD id.toNat 0 - ax.p + xi = ax.span.headD 0 - ax.p)))
          congr 1
          cases b
          · simp only [Bool.false_eq_true, if_false]; exact decide_eq_decide.2 this.1
          · simp only [if_true]; exact decide_eq_decide.2 this.2
        | succ i =>
          have := ih ids x (fun a ha => hax a (by simp [ha])) h2 g2 (i, b)
          unfold OnDomainSide OnGridSide at this ⊢
          exact this

theorem elemDirs_length {axes : List (Axis K)} {ids : List Int}
    (h : List.Forall₂ (fun (ax : Axis K) (id : Int) => 0 ≤ id ∧ id < ax.span.length) axes ids) :
    (elemDirs axes ids).length = axes.length := by
  unfold elemDirs
  rw [List.length_zipWith, ← h.length_eq, Nat.min_self]

theorem elemDirs_nen {axes : List (Axis K)} {ids : List Int} (hax : ∀ ax ∈ axes, PreWF ax) :
    ∀ d ∈ elemDirs axes ids, 1 ≤ d.nen := by
  intro d hd
  unfold elemDirs at hd
  obtain ⟨i, hi, rfl⟩ := List.mem_iff_getElem.1 hd
  rw [List.getElem_zipWith]
  dsimp only
  have := (hax _ (List.getElem_mem (by simp at hi; omega : i < axes.length))).legal.degree
  omega

/-- The fix table of the element, if set, is the ghosted copy of the field `UG` over the grid. -/
def IsGhosted (c : Ctx V) (UG : Option (List Int → Int → V)) : Prop :=
  match c.table, UG with
  | some U, some G => ∀ (x : List Int) (f : Int), InBox (nens c.dirs) x → 0 ≤ f ∧ f < c.dof →
      U (f + c.mapping (flat (nens c.dirs) x) * c.dof) = G (gridNode c.dirs x) f
  | none, none => True
  | _, _ => False

/-- The value of a condition with value `v`: that of the fix table, if set. -/
def fromTable (UG : Option (List Int → Int → V)) (X : List Int) (f : Int) (v : V) : V :=
  match UG with | some G => G X f | none => v

/-- **C36.**  On any grid of configured axes, with any history `ops` of calls on the form: whatever element `ids`
contains the grid node `X` (as its local node `x`), the entry for field `f` at this node in the fix list of the
element is the value the conditions prescribe at the node of the grid – a function of `X` and `f` alone, so
the same in all elements that contain the node.  (The fix table, when set, is the ghosted copy of a vector with
value `UG X f` at field `f` of node `X`.) -/
theorem C36_constrained_in_every_element (axes : List (Axis K)) (hax : ∀ ax ∈ axes, PreWF ax) (ids : List Int)
    (hid : List.Forall₂ (fun (ax : Axis K) (id : Int) => 0 ≤ id ∧ id < ax.span.length) axes ids)
    [CommRing V] (c : Ctx V) (hc : c.dirs = elemDirs axes ids) (ops : List (Form.Op V)) (hform : c.form = run Form.create ops)
    (UG : Option (List Int → Int → V)) (htab : IsGhosted c UG) :
    ∃ s, build c = .ok s ∧ Good c.bufsize s.fix ∧ Good c.bufsize s.flux ∧
      ∀ (x : List Int) (f : Int), InBox (nens c.dirs) x → (0 ≤ f ∧ f < c.dof) →
      tableGet s.fix (flat (nens c.dirs) x * c.dof + f) =
        (nodePrescribed (nodeDirs axes) (fun a s k => inForce a s k (valueEvents ops)) (gridNode c.dirs x) f).map
          (fromTable UG (gridNode c.dirs x) f) := by
  have hn : ∀ d ∈ c.dirs, 1 ≤ d.nen := by rw [hc]; exact elemDirs_nen hax
  obtain ⟨s, e, -, -, -, hget⟩ := C32_fix_list c ops hform hn
  obtain ⟨g1, g2⟩ := build_good c ops hform hn s e
  refine ⟨s, e, g1, g2, ?_⟩
  intro x f hx hf
  rw [hget x f hx hf]
  have hp : prescribed (specDirs c.dirs) (fun a s k => inForce a s k (valueEvents ops)) x f =
      nodePrescribed (nodeDirs axes) (fun a s k => inForce a s k (valueEvents ops)) (gridNode c.dirs x) f := by
    unfold prescribed nodePrescribed
    have hl : (specDirs c.dirs).length = (nodeDirs axes).length := by
      rw [hc]; unfold specDirs nodeDirs; rw [List.length_map, List.length_map, elemDirs_length hid]
    rw [hl]
    apply findSome_congr
    intro q _
    rw [hc, onSide_grid axes ids x hax hid (by rw [← hc]; exact hx)]
  rw [hp]
  congr 1
  funext v
  unfold IsGhosted at htab
  unfold fromTable
  cases ht : c.table with
  | none =>
    cases hg : UG with
    | none => rfl
    | some G => rw [ht, hg] at htab; exact htab.elim
  | some U =>
    cases hg : UG with
    | none => rw [ht, hg] at htab; exact htab.elim
    | some G => rw [ht, hg] at htab; exact htab x f hx hf

/-- On an axis whose end intervals are not empty (any clamped or uniform axis) the sides are the nodes `0` and
`m-p-1`, the first and the last basis function. -/
theorem C36_sides {ax : Axis K} (h : PreWF ax) (h0 : ax.U ax.p < ax.U (ax.p+1))
    (h1 : ax.U (ax.m - ax.p - 1) < ax.U (ax.m - ax.p)) :
    nodeDirs [ax] = [⟨0, ax.m - ax.p - 1, ax.periodic⟩] := by
  have hp := h.legal.degree
  have hm := h.legal.enough
  obtain ⟨a, b⟩ := computeSpans_spec h.legal.sorted hp (by omega)
  rw [← h.span] at a b
  have e0 : ax.p ∈ ax.span := (a _).2 ⟨by omega, by omega, h0⟩
  have e1 : ax.m - ax.p - 1 ∈ ax.span := (a _).2 ⟨by omega, by omega, by
    rw [show ax.m - ax.p - 1 + 1 = ax.m - ax.p by ring]; exact h1⟩
  have hne : 0 < ax.span.length := List.length_pos_of_mem e0
  have hpw := List.pairwise_iff_getElem.1 b
  have hhead : ax.span.headD 0 = ax.span[0] := by
    rw [List.headD_eq_head?_getD, List.head?_eq_getElem?, List.getElem?_eq_getElem hne]; rfl
  have hlast : ax.span.getLastD 0 = ax.span[ax.span.length - 1] := by
    rw [List.getLastD_eq_getLast?, List.getLast?_eq_getElem?, List.getElem?_eq_getElem (by omega)]; rfl
  have c0 : ax.span[0] = ax.p := by
    have hr := ((a ax.span[0]).1 (List.getElem_mem _)).1
    obtain ⟨i, hi, he⟩ := List.mem_iff_getElem.1 e0
    by_cases h : i = 0
    · subst h; exact he
    · have := hpw 0 i (by omega) hi (by omega); omega
  have c1 : ax.span[ax.span.length - 1] = ax.m - ax.p - 1 := by
    have hr := ((a ax.span[ax.span.length - 1]).1 (List.getElem_mem _)).2.1
    obtain ⟨i, hi, he⟩ := List.mem_iff_getElem.1 e1
    by_cases h : i = ax.span.length - 1
    · subst h; exact he
    · have := hpw i (ax.span.length - 1) hi (by omega) (by omega); omega
  unfold nodeDirs
  simp only [List.map_cons, List.map_nil, hhead, hlast, c0, c1, sub_self]

end Mesh

/-! ### The assembled system -/

section Assembled
variable {ι : Type} [DecidableEq ι] [CommRing V]

/-- The element system after `IGAElementFixSystem`. -/
def eliminated (p : ElemSystem ι V × Fixes V) : ElemSystem ι V :=
  { p.1 with K := (fixSystem p.1.n p.1.n p.2 p.1.K p.1.F).1, F := (fixSystem p.1.n p.1.n p.2 p.1.K p.1.F).2 }

/-- The load of the flux lists. -/
def withLoad (p : ElemSystem ι V × Fixes V) : ElemSystem ι V :=
  { p.1 with F := fun a => p.1.F a + (tableGet p.2.flux a).getD 0 }

theorem sum_list_finset {α β : Type} (s : Finset β) (f : α → β → V) : ∀ (L : List α),
    ∑ j ∈ s, (L.map fun e => f e j).sum = (L.map fun e => ∑ j ∈ s, f e j).sum := by
  intro L
  induction L with
  | nil => simp
  | cons a L ih => simp only [List.map_cons, List.sum_cons, Finset.sum_add_distrib, ih]

/-- Assembled matrix times vector, element by element. -/
theorem asm_mul (L : List (ElemSystem ι V)) (I : Finset ι) (hI : ∀ e ∈ L, ∀ a : Nat, a < e.n → e.glob a ∈ I) (x : ι → V) (i : ι) :
    ∑ j ∈ I, asmMat L i j * x j =
      (L.map fun e => ∑ a ∈ range e.n, if e.glob a = i then rowDot e.n e.K (fun b => x (e.glob b)) a else 0).sum := by
  unfold asmMat
  have h1 : ∀ j, (L.map fun e => ∑ a ∈ range e.n, ∑ b ∈ range e.n,
        if e.glob a = i ∧ e.glob b = j then e.K ((a:Int) * e.n + b) else 0).sum * x j =
      (L.map fun e => (∑ a ∈ range e.n, ∑ b ∈ range e.n,
        if e.glob a = i ∧ e.glob b = j then e.K ((a:Int) * e.n + b) else 0) * x j).sum := by
    intro j
    rw [← List.sum_map_mul_right]
  simp only [h1]
  rw [sum_list_finset]
  congr 1
  apply List.map_congr_left
  intro e he
  simp only [Finset.sum_mul]
  rw [Finset.sum_comm]
  apply Finset.sum_congr rfl
  intro a _
  by_cases ha : e.glob a = i
  · rw [if_pos ha, Finset.sum_comm]
    unfold rowDot
    apply Finset.sum_congr rfl
    intro b hb
    rw [Finset.sum_eq_single (e.glob b)]
    · rw [if_pos ⟨ha, rfl⟩]
    · intro j _ hj
      rw [if_neg (fun h => hj h.2.symm), zero_mul]
    · intro h; exact absurd (hI e he b (Finset.mem_range.1 hb)) h
  · rw [if_neg ha]
    apply Finset.sum_eq_zero
    intro j _
    apply Finset.sum_eq_zero
    intro b _
    rw [if_neg (fun h => ha h.1), zero_mul]

theorem sum_const_touch (L : List (ElemSystem ι V)) (i : ι) (v : V) :
    (L.map fun e => ∑ a ∈ range e.n, if e.glob a = i then v else 0).sum = (touch L i : V) * v := by
  unfold touch
  induction L with
  | nil => simp
  | cons e L ih =>
    simp only [List.map_cons, List.sum_cons]
    rw [ih]
    push_cast
    rw [add_mul]
    congr 1
    have : ∀ n : Nat, (∑ a ∈ range n, if e.glob a = i then v else 0) =
        (((List.range n).filter fun (a : Nat) => decide (e.glob a = i)).length : V) * v := by
      intro n
      induction n with
      | zero => simp
      | succ n ihn =>
        rw [Finset.sum_range_succ, ihn, List.range_succ, List.filter_append, List.length_append]
        by_cases h : e.glob n = i
        · rw [if_pos h]; simp [h]; ring
        · rw [if_neg h]; simp [h]
    exact this e.n

/-- Hypotheses on the elements: duplicate-free lists in range, and constrained exactly as `G` prescribes at the
global unknown (that is C36). -/
structure Consistent (G : ι → Option V) (p : ElemSystem ι V × Fixes V) : Prop where
  fix : Good p.1.n p.2.fix
  flux : Good p.1.n p.2.flux
  agree : ∀ a : Int, (0 ≤ a ∧ a < p.1.n) → tableGet p.2.fix a = G (p.1.glob a)

variable (G : ι → Option V)

/-- **C36**, matrix: the assembled row of a constrained unknown is a multiple of the identity row, and the
right-hand side the same multiple of the prescribed value. -/
theorem C36_assembled_row (L : List (ElemSystem ι V × Fixes V)) (hL : ∀ p ∈ L, Consistent G p) {i : ι} {v : V}
    (hi : G i = some v) :
    (∀ j, asmMat (L.map eliminated) i j = if i = j then (touch (L.map Prod.fst) i : V) else 0) ∧
    asmVec (L.map eliminated) i = (touch (L.map Prod.fst) i : V) * v := by
  have hfix : ∀ p ∈ L, ∀ a : Nat, a < p.1.n → p.1.glob a = i → tableGet p.2.fix (a : Int) = some v := by
    intro p hp a ha hg
    rw [(hL p hp).agree a (by omega), hg, hi]
  constructor
  · intro j
    unfold asmMat
    rw [List.map_map]
    by_cases hij : i = j
    · subst hij
      rw [if_pos rfl]
      have := sum_const_touch (L.map Prod.fst) i (1 : V)
      rw [mul_one, List.map_map] at this
      rw [← this]
      congr 1
      apply List.map_congr_left
      intro p hp
      show ∑ a ∈ range p.1.n, ∑ b ∈ range p.1.n, _ = ∑ a ∈ range p.1.n, _
      apply Finset.sum_congr rfl
      intro a ha
      have ha' := Finset.mem_range.1 ha
      by_cases hga : p.1.glob a = i
      · rw [Finset.sum_eq_single a]
        · show (if p.1.glob a = i ∧ p.1.glob a = i then _ else _) = if p.1.glob a = i then _ else _
          rw [if_pos ⟨hga, hga⟩, if_pos hga]
          show (fixSystem p.1.n p.1.n p.2 p.1.K p.1.F).1 ((a:Int) * p.1.n + a) = _
          rw [(C34_entries p.1.n p.2 (hL p hp).fix (hL p hp).flux _ _).1 a a (by omega) (by omega),
            if_pos (.inl (fixed_get.2 ⟨v, hfix p hp a ha' hga⟩)), if_pos rfl]
        · intro b hb hne
          have hb' := Finset.mem_range.1 hb
          show (if p.1.glob a = i ∧ p.1.glob b = i then (fixSystem p.1.n p.1.n p.2 p.1.K p.1.F).1 ((a:Int) * p.1.n + b) else _) = _
          rw [(C34_entries p.1.n p.2 (hL p hp).fix (hL p hp).flux _ _).1 a b (by omega) (by omega),
            if_neg (show ¬ (a:Int) = (b:Int) by omega),
            if_pos (show Fixed p.2.fix a ∨ Fixed p.2.fix b from .inl (fixed_get.2 ⟨v, hfix p hp a ha' hga⟩)), ite_self]
        · intro h; exact absurd ha h
      · show _ = if p.1.glob a = i then _ else _
        rw [if_neg hga]
        apply Finset.sum_eq_zero
        intro b _
        show (if p.1.glob a = i ∧ p.1.glob b = i then _ else _) = _
        rw [if_neg (fun h => hga h.1)]
    · rw [if_neg hij]
      apply List.sum_eq_zero
      intro y hy
      obtain ⟨p, hp, rfl⟩ := List.mem_map.1 hy
      show ∑ a ∈ range p.1.n, ∑ b ∈ range p.1.n, _ = _
      apply Finset.sum_eq_zero
      intro a ha
      apply Finset.sum_eq_zero
      intro b hb
      have ha' := Finset.mem_range.1 ha
      have hb' := Finset.mem_range.1 hb
      show (if p.1.glob a = i ∧ p.1.glob b = j then (fixSystem p.1.n p.1.n p.2 p.1.K p.1.F).1 ((a:Int) * p.1.n + b) else _) = _
      by_cases hg : p.1.glob a = i ∧ p.1.glob b = j
      · rw [if_pos hg, (C34_entries p.1.n p.2 (hL p hp).fix (hL p hp).flux _ _).1 a b (by omega) (by omega),
          if_pos (.inl (fixed_get.2 ⟨v, hfix p hp a ha' hg.1⟩)), if_neg]
        intro hab
        apply hij
        rw [← hg.1, ← hg.2, hab]
      · rw [if_neg hg]
  · unfold asmVec
    rw [List.map_map, ← sum_const_touch (L.map Prod.fst) i v, List.map_map]
    congr 1
    apply List.map_congr_left
    intro p hp
    show ∑ a ∈ range p.1.n, _ = ∑ a ∈ range p.1.n, _
    apply Finset.sum_congr rfl
    intro a ha
    have ha' := Finset.mem_range.1 ha
    show (if p.1.glob a = i then (fixSystem p.1.n p.1.n p.2 p.1.K p.1.F).2 a else _) = if p.1.glob a = i then v else 0
    by_cases hga : p.1.glob a = i
    · rw [if_pos hga, if_pos hga, (C34_entries p.1.n p.2 (hL p hp).fix (hL p hp).flux _ _).2.1 a (by omega),
        hfix p hp a ha' hga]
    · rw [if_neg hga, if_neg hga]

/-- **C36**, solution: over a field where the numbers of touching elements are not zero (characteristic 0, every
constrained unknown in some element), a vector solves the assembled eliminated system exactly when it takes the
prescribed values and satisfies the equations of the original assembled system, with the loads, at all other
unknowns. -/
theorem C36_assembled_solves_iff {V : Type} [Field V] [CharZero V] (G : ι → Option V) (I : Finset ι)
    (L : List (ElemSystem ι V × Fixes V)) (hL : ∀ p ∈ L, Consistent G p)
    (hI : ∀ p ∈ L, ∀ a : Nat, a < p.1.n → p.1.glob a ∈ I) (ht : ∀ i ∈ I, 0 < touch (L.map Prod.fst) i) (x : ι → V) :
    (∀ i ∈ I, ∑ j ∈ I, asmMat (L.map eliminated) i j * x j = asmVec (L.map eliminated) i) ↔
      (∀ i ∈ I, ∀ v, G i = some v → x i = v) ∧
      ∀ i ∈ I, G i = none → ∑ j ∈ I, asmMat (L.map Prod.fst) i j * x j = asmVec (L.map withLoad) i := by
  have hIe : ∀ e ∈ L.map eliminated, ∀ a : Nat, a < e.n → e.glob a ∈ I := by
    intro e he; obtain ⟨p, hp, rfl⟩ := List.mem_map.1 he; exact hI p hp
  have hIo : ∀ e ∈ L.map Prod.fst, ∀ a : Nat, a < e.n → e.glob a ∈ I := by
    intro e he; obtain ⟨p, hp, rfl⟩ := List.mem_map.1 he; exact hI p hp
  have hfixed : ∀ i ∈ I, ∀ v, G i = some v →
      (∑ j ∈ I, asmMat (L.map eliminated) i j * x j = asmVec (L.map eliminated) i ↔ x i = v) := by
    intro i hi v hv
    obtain ⟨a, b⟩ := C36_assembled_row G L hL hv
    rw [b, Finset.sum_eq_single i]
    · rw [a i, if_pos rfl]
      constructor
      · intro h
        have h0 : (touch (L.map Prod.fst) i : V) ≠ 0 := by
          have := ht i hi
          exact_mod_cast (by omega : touch (L.map Prod.fst) i ≠ 0)
        exact mul_left_cancel₀ h0 h
      · intro h; rw [h]
    · intro j _ hj; rw [a j, if_neg (fun h => hj h.symm), zero_mul]
    · intro h; exact absurd hi h
  -- free rows
  have hfree : (∀ i ∈ I, ∀ v, G i = some v → x i = v) → ∀ i ∈ I, G i = none →
      ((∑ j ∈ I, asmMat (L.map eliminated) i j * x j) - asmVec (L.map eliminated) i =
       (∑ j ∈ I, asmMat (L.map Prod.fst) i j * x j) - asmVec (L.map withLoad) i) := by
    intro hx i hi hg
    rw [asm_mul _ I hIe, asm_mul _ I hIo]
    unfold asmVec
    simp only [List.map_map]
    have hsub : ∀ (f g : ElemSystem ι V × Fixes V → V), (L.map f).sum - (L.map g).sum = (L.map fun p => f p - g p).sum := by
      intro f g
      clear hL hI ht hIe hIo hfixed
      induction L with
      | nil => simp
      | cons a L ih => simp only [List.map_cons, List.sum_cons]; rw [← ih]; ring
    rw [hsub, hsub]
    congr 1
    apply List.map_congr_left
    intro p hp
    show (∑ a ∈ range p.1.n, _) - (∑ a ∈ range p.1.n, _) = (∑ a ∈ range p.1.n, _) - (∑ a ∈ range p.1.n, _)
    rw [← Finset.sum_sub_distrib, ← Finset.sum_sub_distrib]
    apply Finset.sum_congr rfl
    intro a ha
    have ha' := Finset.mem_range.1 ha
    have hc := hL p hp
    show (if p.1.glob a = i then rowDot p.1.n (fixSystem p.1.n p.1.n p.2 p.1.K p.1.F).1 (fun b => x (p.1.glob b)) a else 0) -
        (if p.1.glob a = i then (fixSystem p.1.n p.1.n p.2 p.1.K p.1.F).2 a else 0) =
      (if p.1.glob a = i then rowDot p.1.n p.1.K (fun b => x (p.1.glob b)) a else 0) -
        (if p.1.glob a = i then p.1.F a + (tableGet p.2.flux a).getD 0 else 0)
    by_cases hga : p.1.glob a = i
    · simp only [if_pos hga]
      have hnone : tableGet p.2.fix (a : Int) = none := by rw [hc.agree a (by omega), hga, hg]
      rw [(C34_entries p.1.n p.2 hc.fix hc.flux _ _).2.1 a (by omega), hnone]
      have := rowDot_free p.2 hc.fix hc.flux p.1.K p.1.F (fun b => x (p.1.glob b)) (i := (a : Int)) (by omega) (tableGet_none.1 hnone)
      rw [← this]
      have e : (p.2.fix.map fun q => p.1.K ((a:Int) * p.1.n + q.1) * x (p.1.glob q.1)) =
          p.2.fix.map fun q => p.1.K ((a:Int) * p.1.n + q.1) * q.2 := by
        apply List.map_congr_left
        intro q hq
        have hm : Fixed p.2.fix q.1 := List.mem_map.2 ⟨q, hq, rfl⟩
        have hr := hc.fix.range q.1 hm
        have hq' := (tableGet_iff hc.fix.distinct q.1 q.2).2 hq
        rw [hc.agree q.1 hr] at hq'
        have hgI : p.1.glob q.1 ∈ I := by
          have := hI p hp q.1.toNat (by omega)
          rwa [show ((q.1.toNat : Nat) : Int) = q.1 by omega] at this
        rw [hx _ hgI _ hq']
      rw [e]
      ring
    · simp only [if_neg hga]
  constructor
  · intro hs
    have hx : ∀ i ∈ I, ∀ v, G i = some v → x i = v := fun i hi v hv => (hfixed i hi v hv).1 (hs i hi)
    refine ⟨hx, ?_⟩
    intro i hi hg
    have := hfree hx i hi hg
    rw [hs i hi, sub_self] at this
    exact (sub_eq_zero.1 this.symm)
  · rintro ⟨hx, hf⟩ i hi
    cases hg : G i with
    | some v => exact (hfixed i hi v hg).2 (hx i hi v hg)
    | none =>
      have := hfree hx i hi hg
      rw [hf i hi hg, sub_self] at this
      exact sub_eq_zero.1 this

end Assembled

/-! ### The two together: the grid, its conditions, and the assembled system -/

section Whole
variable {K : Type} [Field K] [LinearOrder K] [IsStrictOrderedRing K]

/-- The node of the grid once periodic directions are wrapped. -/
def wrapNode (axes : List (Axis K)) (X : List Int) : List Int :=
  List.zipWith (fun ax x => if ax.periodic then x % ax.nnp else x) axes X

theorem onSide_wrap (axes : List (Axis K)) (X : List Int) (hl : X.length = axes.length) (s : Nat × Bool) :
    OnGridSide (nodeDirs axes) (wrapNode axes X) s = OnGridSide (nodeDirs axes) X s := by
  unfold OnGridSide nodeDirs wrapNode
  by_cases h : s.1 < axes.length
  · have h2 : s.1 < X.length := by omega
    rw [List.getElem?_map, List.getElem?_zipWith, List.getElem?_eq_getElem h, List.getElem?_eq_getElem h2]
    simp only [Option.map_some]
    cases hp : axes[s.1].periodic <;> simp
  · rw [List.getElem?_map, List.getElem?_eq_none (by omega : axes.length ≤ s.1)]; rfl

/-- What the conditions prescribe at a global unknown: field `q.2` at (wrapped) grid node `q.1`. -/
def prescribedAt (axes : List (Axis K)) (ops : List (Form.Op V)) (UG : Option (List Int → Int → V)) (q : List Int × Int) :
    Option V :=
  (nodePrescribed (nodeDirs axes) (fun a s k => inForce a s k (valueEvents ops)) q.1 q.2).map (fromTable UG q.1 q.2)

/-- `p` is the system and the fix and flux lists of an element of the grid; unknowns are numbered by grid node and
field. -/
structure ElementOf [CommRing V] (axes : List (Axis K)) (ops : List (Form.Op V)) (dof : Nat)
    (UG : Option (List Int → Int → V)) (p : ElemSystem (List Int × Int) V × Fixes V) : Prop where
  intro ::
  ex : ∃ (ids : List Int) (c : Ctx V),
    List.Forall₂ (fun (ax : Axis K) (id : Int) => 0 ≤ id ∧ id < ax.span.length) axes ids ∧
    c.dirs = elemDirs axes ids ∧ c.dof = dof ∧ c.form = run Form.create ops ∧
    IsGhosted c (UG.map fun G X f => G (wrapNode axes X) f) ∧
    build c = .ok p.2 ∧ p.1.n = c.bufsize ∧
    ∀ (x : List Int) (f : Int), InBox (nens c.dirs) x → (0 ≤ f ∧ f < dof) →
      p.1.glob (flat (nens c.dirs) x * dof + f) = (wrapNode axes (gridNode c.dirs x), f)

theorem inBox_length {ns x : List Int} (h : InBox ns x) : x.length = ns.length := List.Forall₂.length_eq h |>.symm

theorem element_consistent [CommRing V] {axes : List (Axis K)} (hax : ∀ ax ∈ axes, PreWF ax) {ops : List (Form.Op V)} {dof : Nat}
    {UG : Option (List Int → Int → V)} {p : ElemSystem (List Int × Int) V × Fixes V} (h : ElementOf axes ops dof UG p) :
    Consistent (prescribedAt axes ops UG) p := by
  obtain ⟨ids, c, hid, hc, hdof, hform, htab, hb, hn, hglob⟩ := h.ex
  obtain ⟨s, e, g1, g2, hget⟩ := C36_constrained_in_every_element axes hax ids hid c hc ops hform _ htab
  rw [hb] at e
  cases e
  refine ⟨by rw [hn]; exact g1, by rw [hn]; exact g2, ?_⟩
  intro a ha
  rw [hn] at ha
  unfold Ctx.bufsize at ha
  rw [hdof] at ha
  have hd : 0 < dof := by
    rcases Nat.eq_zero_or_pos dof with h0 | h0
    · rw [h0] at ha; simp at ha; omega
    · exact h0
  have hq : 0 ≤ a / dof ∧ a / dof < c.nen := by
    refine ⟨Int.ediv_nonneg ha.1 (by omega), ?_⟩
    rw [Int.ediv_lt_iff_lt_mul (by omega)]
    have := ha.2; push_cast at this; exact this
  have hnen : ∀ d ∈ nens c.dirs, (1:Int) ≤ d := by
    intro d hd
    obtain ⟨d', hd', rfl⟩ := List.mem_map.1 hd
    have := elemDirs_nen (ids := ids) hax d' (by rw [← hc]; exact hd')
    omega
  obtain ⟨x, hx, hfx⟩ := flat_surj hnen hq.1 (by have := hq.2; unfold Ctx.nen at this; rw [nen_prod] at this; exact this)
  have hf : 0 ≤ a % dof ∧ a % dof < dof := ⟨Int.emod_nonneg _ (by omega), Int.emod_lt_of_pos _ (by omega)⟩
  have hak : a = flat (nens c.dirs) x * dof + a % dof := by rw [hfx, Int.ediv_mul_add_emod]
  rw [hak, hglob x _ hx hf]
  have := hget x (a % dof) hx (by rw [hdof]; exact hf)
  rw [hdof] at this
  rw [this]
  unfold prescribedAt
  have hlen : (gridNode c.dirs x).length = axes.length := by
    unfold gridNode
    rw [List.length_zipWith, inBox_length hx]
    unfold nens
    rw [List.length_map, Nat.min_self, hc, elemDirs_length hid]
  have e1 : nodePrescribed (nodeDirs axes) (fun a s k => inForce a s k (valueEvents ops)) (wrapNode axes (gridNode c.dirs x)) (a % dof) =
      nodePrescribed (nodeDirs axes) (fun a s k => inForce a s k (valueEvents ops)) (gridNode c.dirs x) (a % dof) := by
    unfold nodePrescribed
    apply findSome_congr
    intro q _
    rw [onSide_wrap axes _ hlen]
  dsimp only
  rw [e1]
  congr 1
  funext v
  cases UG <;> rfl

/-- **C36.**  Take any grid of configured axes, any calls on the form, any set of its elements with any element
systems.  A vector solves the system assembled from the eliminated element systems exactly when it has the
prescribed value at every prescribed unknown touched and satisfies the equations assembled from the original element systems, plus
loads, at all others. -/
theorem C36_dirichlet_problem {V : Type} [Field V] [CharZero V] (axes : List (Axis K)) (hax : ∀ ax ∈ axes, PreWF ax)
    (ops : List (Form.Op V)) (dof : Nat) (UG : Option (List Int → Int → V))
    (L : List (ElemSystem (List Int × Int) V × Fixes V)) (hL : ∀ p ∈ L, ElementOf axes ops dof UG p)
    (I : Finset (List Int × Int)) (hI : ∀ p ∈ L, ∀ a : Nat, a < p.1.n → p.1.glob a ∈ I)
    (ht : ∀ i ∈ I, 0 < touch (L.map Prod.fst) i) (x : List Int × Int → V) :
    (∀ i ∈ I, ∑ j ∈ I, asmMat (L.map eliminated) i j * x j = asmVec (L.map eliminated) i) ↔
      (∀ i ∈ I, ∀ v, prescribedAt axes ops UG i = some v → x i = v) ∧
      ∀ i ∈ I, prescribedAt axes ops UG i = none →
        ∑ j ∈ I, asmMat (L.map Prod.fst) i j * x j = asmVec (L.map withLoad) i :=
  C36_assembled_solves_iff _ I L (fun p hp => element_consistent hax (hL p hp)) hI ht x

/-! A case: two linear elements in one direction, value 5 on the left, load 3 on the right. -/

def exU : Int → Rat := fun i => if i ≤ 1 then 0 else if i = 2 then 1/2 else 1
def exAxis : Axis Rat := ⟨false, 1, 4, exU, 3, 2, [1, 2]⟩
def exOps : List (Form.Op Rat) := [.setValue 0 0 0 5, .setLoad 0 1 0 3]
def exEl (id : Int) : Ctx Rat := ⟨elemDirs [exAxis] [id], 1, run Form.create exOps, none, fun a => a, fun _ _ => 1⟩
def exSys (id : Int) : ElemSystem (List Int × Int) Rat :=
  ⟨2, fun a => ([id + a], 0), fun k => if k = 0 ∨ k = 3 then 2 else -2, fun _ => 0⟩

theorem exAxis_legal : LegalKnots exAxis.p exAxis.m exAxis.U := by
  have h5 : ∀ i : Int, 0 ≤ i → i < 5 → i = 0 ∨ i = 1 ∨ i = 2 ∨ i = 3 ∨ i = 4 := by intro i; omega
  refine ⟨by decide, by decide, ?_, ?_⟩
  · intro i h0 h1
    have hi' : i < 4 := h1
    rcases h5 i h0 (by omega) with rfl | rfl | rfl | rfl | rfl <;> first | (exfalso; omega) | decide +kernel
  · intro i h1 hi
    have : exAxis.m = 4 := rfl
    have : exAxis.p = 1 := rfl
    have : i = 1 ∨ i = 2 := by omega
    rcases this with rfl | rfl <;> decide +kernel

theorem exAxis_wf : PreWF exAxis := ⟨exAxis_legal, by decide +kernel, rfl⟩

example : ∀ p ∈ [(exSys 0, (⟨[(0, 5)], []⟩ : Fixes Rat)), (exSys 1, ⟨[], [(1, 3)]⟩)], ElementOf [exAxis] exOps 1 none p := by
  have hg : ∀ id : Int, ∀ (x : List Int) (f : Int), InBox (nens (exEl id).dirs) x → (0 ≤ f ∧ f < ((1 : Nat) : Int)) →
      (id = 0 ∨ id = 1) → (exSys id).glob (flat (nens (exEl id).dirs) x * ((1 : Nat) : Int) + f) =
        (wrapNode [exAxis] (gridNode (exEl id).dirs x), f) := by
    intro id x f hx hf hid
    have hb : InBox [2] x := hx
    cases hb with
    | cons h1 h2 =>
      cases h2
      rename_i x0
      have hf0 : f = 0 := by omega
      subst hf0
      have hx0 : x0 = 0 ∨ x0 = 1 := by omega
      rcases hid with rfl | rfl <;> rcases hx0 with rfl | rfl <;> decide +kernel
  intro p hp
  rcases List.mem_cons.1 hp with rfl | hp
  · exact ⟨[0], exEl 0, .cons (by decide) .nil, rfl, rfl, rfl, trivial, by decide +kernel, rfl,
      fun x f hx hf => hg 0 x f hx hf (.inl rfl)⟩
  · rcases List.mem_cons.1 hp with rfl | hp
    · exact ⟨[1], exEl 1, .cons (by decide) .nil, rfl, rfl, rfl, trivial, by decide +kernel, rfl,
        fun x f hx hf => hg 1 x f hx hf (.inr rfl)⟩
    · cases hp

example : prescribedAt [exAxis] exOps none ([0], 0) = some 5 ∧ prescribedAt [exAxis] exOps none ([1], 0) = none := by
  decide +kernel

end Whole

end PetIGA.Fix
