import Verif.Model.SetUp
import Verif.Props.Span
import Verif.Lemmas.Layout

/-!
C68: the one-dimensional tables of the collocation method.
-/

set_option linter.unusedSectionVars false

namespace PetIGA.Quad
open PetIGA.Ax PetIGA.Lay PetIGA.Spec

variable {K V : Type} [Field K] [LinearOrder K] [IsStrictOrderedRing K]

/-- `k` is the knot interval in which the point `u` is evaluated: the interval contains `u`, except that points at or
before the start of the domain use the first interval and points at or after its end the last one. -/
def EvalSpan (ax : Axis K) (u : K) (k : Int) : Prop :=
  (u ≤ ax.U ax.p ∧ k = ax.p) ∨ (ax.U (ax.m - ax.p) ≤ u ∧ k = ax.m - ax.p - 1) ∨
    (ax.p ≤ k ∧ k ≤ ax.m - ax.p - 1 ∧ ax.U k ≤ u ∧ u < ax.U (k+1))

theorem collocElems_spec {cb : Int → K → V} {ax : Axis K} (h : WF ax) {shift : Int} (h0 : 0 ≤ shift)
    (h1 : shift + ax.nnp ≤ ax.m - ax.p) : ∀ (l : List Nat), (∀ i ∈ l, (i:Int) < ax.nnp) →
    ∃ es, collocElems cb ax shift l = .ok es ∧ es.length = l.length ∧
      ∀ (j : Nat) (i : Nat), l[j]? = some i → ∃ k, EvalSpan ax (greville ((i:Int) + shift) ax.p ax.U) k ∧
        k - ax.p - shift ≤ i ∧ (i:Int) ≤ k - shift ∧
        es[j]? = some { offset := k - ax.p - shift, detJac := 1, weight := [1],
                        point := [greville ((i:Int) + shift) ax.p ax.U],
                        value := [some (cb k (greville ((i:Int) + shift) ax.p ax.U))] } := by
  have hs := gsp_spec h.toPreWF
  have hp := h.legal.degree
  have hm := h.legal.enough
  intro l
  induction l with
  | nil => intro _; exact ⟨[], rfl, rfl, by intro j i hi; simp at hi⟩
  | cons i l ih =>
    intro hl
    obtain ⟨es, e1, e2, e3⟩ := ih fun j hj => hl j (by simp [hj])
    have hi := hl i (by simp)
    obtain ⟨g1, g2, g3, g4, g5⟩ := hs.1 ((i:Int) + shift) (by omega) (by omega)
    have hf := g1
    unfold grevSpan at hf
    refine ⟨Elem.mk (gsp ax ((i:Int) + shift) - ax.p - shift) 1 [1] [greville ((i:Int) + shift) ax.p ax.U]
        [some (cb (gsp ax ((i:Int) + shift)) (greville ((i:Int) + shift) ax.p ax.U))] :: es, ?_, by simp [e2], ?_⟩
    · simp only [collocElems, hf, Res.bind, e1]
    · intro j i' hj
      cases j with
      | succ j => simpa using e3 j i' (by simpa using hj)
      | zero =>
        simp only [List.getElem?_cons_zero, Option.some.injEq] at hj
        subst hj
        refine ⟨gsp ax ((i:Int) + shift), ?_, by omega, by omega, rfl⟩
        have hfs : findSpan (ax.m+1).toNat (ax.m - ax.p - 1) ax.p (greville ((i:Int) + shift) ax.p ax.U) ax.U
            = some (gsp ax ((i:Int) + shift)) := by
          rwa [Res.ofOption_eq_ok] at hf
        generalize greville ((i:Int) + shift) ax.p ax.U = u at hfs
        have hc := C10_find_span_clamps (ax.m-ax.p-1) ax.p ax.U u (ax.m+1).toNat
        rw [show ax.m - ax.p - 1 + 1 = ax.m - ax.p by ring] at hc
        rcases le_or_gt u (ax.U ax.p) with q1 | q1
        · left
          rw [hc.1 q1] at hfs
          exact ⟨q1, (Option.some.inj hfs).symm⟩
        · rcases le_or_gt (ax.U (ax.m-ax.p)) u with q2 | q2
          · right; left
            rw [hc.2 q1 q2] at hfs
            exact ⟨q2, (Option.some.inj hfs).symm⟩
          · right; right
            obtain ⟨k, a, b, c, d, e, _⟩ := C10_find_span_brackets (ax.m-ax.p-1) ax.p ax.U u (ax.m+1).toNat
              (by rw [show ax.m - ax.p - 1 + ax.p + 1 = ax.m by ring]; exact h.legal.sorted) (by omega) (by omega) (by omega) q1
              (by rwa [show ax.m - ax.p - 1 + 1 = ax.m - ax.p by ring])
            rw [a] at hfs
            cases hfs
            exact ⟨b, c, d, e⟩

/-- **C68.**  On a configured axis and with the B-spline basis, the collocation tables have one entry per node and one point
of weight one per entry.  The point of node `i` is the Greville abscissa of the basis function the node stands for (number
`i + shift`, where `shift` halves the functions identified on a periodic axis), the tabulated functions are those of the
knot interval in which that point lies, the first of them has node number `offset`, and node `i` itself is one of
them.  The points are strictly increasing. -/
theorem C68_collocation_tables (cb : Int → K → V) (ax : Axis K) (h : WF ax) :
    ∃ (b : Basis K V) (shift : Int), initCollocation cb .bspline ax = .ok b ∧
      0 ≤ shift ∧ shift + ax.nnp ≤ ax.m - ax.p ∧ (ax.periodic = false → shift = 0) ∧
      b.nqp = 1 ∧ b.nen = ax.p + 1 ∧ (b.elems.length : Int) = ax.nnp ∧
      (∀ i : Nat, (i:Int) < ax.nnp → ∃ k, EvalSpan ax (greville ((i:Int) + shift) ax.p ax.U) k ∧
        k - ax.p - shift ≤ i ∧ (i:Int) ≤ k - ax.p - shift + ax.p ∧
        b.elems[i]? = some { offset := k - ax.p - shift, detJac := 1, weight := [1],
                             point := [greville ((i:Int) + shift) ax.p ax.U],
                             value := [some (cb k (greville ((i:Int) + shift) ax.p ax.U))] }) ∧
      (∀ i j : Nat, i < j → (j:Int) < ax.nnp → greville ((i:Int) + shift) ax.p ax.U < greville ((j:Int) + shift) ax.p ax.U) := by
  obtain ⟨s1, s2, s3⟩ := shift_bounds h
  obtain ⟨n1, n2, n3, n4⟩ := nnp_bounds h
  have hp := h.legal.degree
  have hm := h.legal.enough
  unfold initCollocation
  rw [if_neg (by simp)]
  dsimp only
  generalize hsh : Int.tdiv (ax.m - ax.p - 1 + 1 - ax.nnp) 2 = shift at *
  obtain ⟨es, e1, e2, e3⟩ := collocElems_spec (cb := cb) h s1 (by omega) (List.range ax.nnp.toNat)
    (by intro i hi; have := List.mem_range.1 hi; omega)
  refine ⟨_, shift, by rw [e1]; rfl, s1, by omega, ?_, rfl, rfl, ?_, ?_, ?_⟩
  · intro hper
    have := n3 hper
    omega
  · simp only [e2, List.length_range]; omega
  · intro i hi
    obtain ⟨k, k1, k2, k3, k4⟩ := e3 i i (by rw [List.getElem?_range]; omega)
    exact ⟨k, k1, k2, by omega, k4⟩
  · intro i j hij hj
    induction j with
    | zero => omega
    | succ j ih =>
      push_cast at hj ⊢
      have st : greville ((j:Int) + shift) ax.p ax.U < greville ((j:Int) + shift + 1) ax.p ax.U :=
        C15_greville_distinct _ _ _ _ h.legal (by omega) (by omega)
      rw [show (j:Int) + 1 + shift = (j:Int) + shift + 1 by ring]
      rcases Nat.lt_or_ge i j with hlt | hge
      · exact lt_trans (ih hlt (by omega)) st
      · have : i = j := by omega
        subst this; exact st

/-- A basis type other than the B-spline basis is refused. -/
theorem C68_other_basis_refused (cb : Int → K → V) (bt : BasisType) (ax : Axis K) (h : bt ≠ .bspline) :
    initCollocation cb bt ax = .err .outOfRange := by
  unfold initCollocation
  rw [if_pos h]

/-- Degree 2, 4 elements: the first two and the last Greville points are those of nodes 0, 1 and 5. -/
example : WF (Ax.initUniform (fun _ => (0:Rat)) (Ax.setDegree (Ax.create fun _ => 0) 2).2 4 0 1 (-1)).2 ∧
    (match initCollocation (fun k u => (k, u)) .bspline
        (Ax.initUniform (fun _ => (0:Rat)) (Ax.setDegree (Ax.create fun _ => 0) 2).2 4 0 1 (-1)).2 with
      | .ok b => b.elems.map fun e => (e.offset, e.point)
      | _ => []) = [(0, [0]), (0, [1/8]), (1, [3/8]), (2, [5/8]), (3, [7/8]), (3, [1])] := by
  refine ⟨?_, by decide +kernel⟩
  have h1 : Reached (Ax.setDegree (Ax.create fun _ => (0:Rat)) 2).2 :=
    Reached.step _ (.setDegree 2) (Reached.create fun _ => 0) rfl
  have h2 : Reached (Ax.initUniform (fun _ => (0:Rat)) (Ax.setDegree (Ax.create fun _ => 0) 2).2 4 0 1 (-1)).2 :=
    Reached.step _ (.initUniform (fun _ => 0) 4 0 1 (-1)) h1 rfl
  have h3 : (Ax.setUp (Ax.initUniform (fun _ => (0:Rat)) (Ax.setDegree (Ax.create fun _ => 0) 2).2 4 0 1 (-1)).2).2 =
      (Ax.initUniform (fun _ => (0:Rat)) (Ax.setDegree (Ax.create fun _ => 0) 2).2 4 0 1 (-1)).2 := rfl
  rw [← h3]
  exact setUp_wf _ h2 rfl

end PetIGA.Quad
