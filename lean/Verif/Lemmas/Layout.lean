import Verif.Model.Layout
import Verif.Spec.Layout
import Verif.Lemmas.AxisHist
import Verif.Props.Part
import Verif.Props.Span
/-! Lemmas about `Verif.Model.Layout`. -/
set_option linter.unusedSectionVars false
namespace PetIGA.Lay
open PetIGA.Ax PetIGA.Part PetIGA.Spec

variable {K : Type} [Field K] [LinearOrder K] [IsStrictOrderedRing K]

/-- `span[i]` for an index known to be legal. -/
def sp (ax : Axis K) (i : Int) : Int := ax.span.getD i.toNat 0

section wf
variable {ax : Axis K} (h : PreWF ax)
include h

theorem spanAt_ok {i : Int} (h0 : 0 ≤ i) (h1 : i < ax.nel) : spanAt ax i = .ok (sp ax i) := by
  have := h.nel
  unfold spanAt sp
  rw [if_neg (by omega)]
  have hi : i.toNat < ax.span.length := by omega
  rw [List.getElem?_eq_getElem hi, List.getD_eq_getElem?_getD, List.getElem?_eq_getElem hi]; rfl

theorem sp_mem {i : Int} (h0 : 0 ≤ i) (h1 : i < ax.nel) : sp ax i ∈ ax.span := by
  have := h.nel
  have hi : i.toNat < ax.span.length := by omega
  unfold sp
  rw [List.getD_eq_getElem?_getD, List.getElem?_eq_getElem hi]
  exact List.getElem_mem hi

theorem sp_elem {i : Int} (h0 : 0 ≤ i) (h1 : i < ax.nel) : IsElement ax.p ax.m ax.U (sp ax i) := by
  have hm := sp_mem h h0 h1
  rw [h.span] at hm
  have := h.legal.degree; have := h.legal.enough
  exact ((computeSpans_spec h.legal.sorted h.legal.degree (by omega)).1 _).1 hm

theorem sp_lt {i j : Int} (h0 : 0 ≤ i) (hij : i < j) (h1 : j < ax.nel) : sp ax i < sp ax j := by
  have hn := h.nel
  have := h.legal.degree; have := h.legal.enough
  have hp := (computeSpans_spec h.legal.sorted h.legal.degree (by omega)).2
  rw [← h.span] at hp
  unfold sp
  have hi : i.toNat < ax.span.length := by omega
  have hj : j.toNat < ax.span.length := by omega
  rw [List.getD_eq_getElem?_getD, List.getD_eq_getElem?_getD, List.getElem?_eq_getElem hi, List.getElem?_eq_getElem hj]
  exact List.pairwise_iff_getElem.1 hp _ _ hi hj (by omega)

theorem sp_le {i j : Int} (h0 : 0 ≤ i) (hij : i ≤ j) (h1 : j < ax.nel) : sp ax i ≤ sp ax j := by
  rcases Int.lt_or_eq_of_le hij with h' | h'
  · exact (sp_lt h h0 h' h1).le
  · rw [h']

theorem mem_sp {k : Int} (hk : IsElement ax.p ax.m ax.U k) : ∃ i, 0 ≤ i ∧ i < ax.nel ∧ sp ax i = k := by
  have := h.legal.degree; have := h.legal.enough
  have hm := ((computeSpans_spec h.legal.sorted h.legal.degree (by omega)).1 _).2 hk
  rw [← h.span] at hm
  obtain ⟨i, hi, e⟩ := List.getElem_of_mem hm
  have := h.nel
  refine ⟨i, by omega, by omega, ?_⟩
  unfold sp
  rw [List.getD_eq_getElem?_getD, show ((i:Int).toNat) = i by omega, List.getElem?_eq_getElem hi]
  exact e

theorem sp_first (hn : 1 ≤ ax.nel) (hf : ax.U ax.p < ax.U (ax.p+1)) : sp ax 0 = ax.p := by
  have := h.legal.degree; have := h.legal.enough
  obtain ⟨i, h0, h1, e⟩ := mem_sp h (k := ax.p) ⟨le_refl _, by omega, hf⟩
  have a := (sp_elem h (i := 0) (by omega) (by omega)).1
  have b := sp_le h (i := 0) (j := i) (by omega) h0 h1
  omega

theorem sp_last (hn : 1 ≤ ax.nel) (hf : ax.U (ax.m-ax.p-1) < ax.U (ax.m-ax.p)) : sp ax (ax.nel-1) = ax.m - ax.p - 1 := by
  have := h.legal.degree; have := h.legal.enough
  obtain ⟨i, h0, h1, e⟩ := mem_sp h (k := ax.m-ax.p-1)
    ⟨by omega, le_refl _, by rwa [show ax.m - ax.p - 1 + 1 = ax.m - ax.p by ring]⟩
  have a := (sp_elem h (i := ax.nel-1) (by omega) (by omega)).2.1
  have b := sp_le h (i := i) (j := ax.nel-1) h0 (by omega) (by omega)
  omega

end wf

theorem nnp_bounds {ax : Axis K} (h : WF ax) :
    ax.m - 2*ax.p ≤ ax.nnp ∧ ax.nnp ≤ ax.m - ax.p ∧ (ax.periodic = false → ax.nnp = ax.m - ax.p) ∧
    (ax.periodic = true → ax.nnp ≤ ax.m - ax.p - 1) := by
  have := h.legal.degree; have := h.legal.enough
  rw [h.nnp]
  unfold computeNnp
  cases hper : ax.periodic
  · simp; omega
  · simp only [if_true]
    obtain ⟨a, b, _⟩ := nextKnot_fwd ax.U (m := ax.m) (k := ax.m - ax.p - 1 + 1) (by omega) (by omega)
    have : (true = false) = False := by simp
    refine ⟨by omega, by omega, by simp, by omega⟩

/-- The layout of one direction in the Galerkin case, written out. -/
def galDir (ax : Axis K) (P r : Int) : Dir :=
  let s := (dist1D P r ax.nel).2
  let w := (dist1D P r ax.nel).1
  let ls := sp ax s - ax.p
  let lend := if s + w - 1 < ax.nel - 1 then sp ax (s+w) - ax.p else sp ax (s+w-1) + 1
  { elemSize := ax.nel, elemStart := s, elemWidth := w,
    geomSize := sp ax (ax.nel-1) + 1, geomLstart := ls, geomLwidth := lend - ls,
    geomGstart := ls, geomGwidth := sp ax (s+w-1) + 1 - ls,
    nodeShift := 0, nodeSize := ax.nnp, nodeLstart := ls,
    nodeLwidth := if r = P-1 then ax.nnp - ls else lend - ls,
    nodeGstart := ls, nodeGwidth := sp ax (s+w-1) + 1 - ls }

theorem bal_range {P N r : Int} (hP : 1 ≤ P) (hN : P ≤ N) (h0 : 0 ≤ r) (h1 : r < P) :
    0 ≤ (dist1D P r N).2 ∧ 1 ≤ (dist1D P r N).1 ∧ (dist1D P r N).2 + (dist1D P r N).1 ≤ N ∧
    (r < P - 1 → (dist1D P r N).2 + (dist1D P r N).1 < N) ∧
    (r = P-1 → (dist1D P r N).2 + (dist1D P r N).1 = N) := by
  have B := C02_distribution_balanced P N hP (by omega)
  have hfull := B.full hN
  have mono : ∀ (d : Nat) (a : Int), 0 ≤ a → a + d < P → (dist1D P a N).2 ≤ (dist1D P (a+d) N).2 := by
    intro d
    induction d with
    | zero => intro a _ _; simp
    | succ d ih =>
      intro a ha hd
      push_cast at hd ⊢
      have h1 := ih a ha (by omega)
      have h2 := B.next (a+d) (by omega) (by omega)
      have h3 := hfull (a+d) (by omega) (by omega)
      rw [← add_assoc, h2]; omega
  have hfirst := B.first
  have hlast := B.last
  have a0 := mono r.toNat 0 (by omega) (by omega)
  rw [show (0:Int) + (r.toNat : Nat) = r by omega, hfirst] at a0
  have hf := hfull r h0 h1
  by_cases hr : r = P - 1
  · subst hr; exact ⟨a0, hf, by omega, by omega, by omega⟩
  · have a1 := B.next r h0 (by omega)
    have a2 := mono (P-1-(r+1)).toNat (r+1) (by omega) (by omega)
    rw [show r + 1 + ((P-1-(r+1)).toNat : Int) = P - 1 by omega] at a2
    have a3 := hfull (P-1) (by omega) (by omega)
    exact ⟨a0, hf, by omega, by omega, by omega⟩

theorem galerkinDir_eq {ax : Axis K} (h : PreWF ax) {P r : Int} (hP : 1 ≤ P) (hN : P ≤ ax.nel)
    (h0 : 0 ≤ r) (h1 : r < P) :
    galerkinDir ax P r ax.nel (dist1D P r ax.nel).2 (dist1D P r ax.nel).1 = .ok (galDir ax P r) := by
  obtain ⟨a, b, c, d, e⟩ := bal_range hP hN h0 h1
  unfold galerkinDir galDir
  generalize (dist1D P r ax.nel).2 = s at *
  generalize (dist1D P r ax.nel).1 = w at *
  dsimp only
  rw [spanAt_ok h (by omega) (by omega), Res.ok_bind, spanAt_ok h (by omega) (by omega), Res.ok_bind,
    spanAt_ok h (by omega) (by omega), Res.ok_bind]
  by_cases hl : s + w - 1 < ax.nel - 1
  · rw [if_pos hl, spanAt_ok h (by omega) (by omega), Res.ok_bind, Res.ok_bind, if_pos hl,
      show s + w - 1 + 1 = s + w by ring]
  · rw [if_neg hl, if_neg hl, Res.ok_bind]

/-- The span found for the `i`-th Greville point. -/
def gsp (ax : Axis K) (i : Int) : Int := (findSpan (ax.m+1).toNat (ax.m - ax.p - 1) ax.p (greville i ax.p ax.U) ax.U).getD 0

/-- The layout of one direction in the collocation case, written out. -/
def colDir (ax : Axis K) (P r : Int) : Dir :=
  let s := (dist1D P r ax.nnp).2
  let w := (dist1D P r ax.nnp).1
  let p := ax.p
  let n := ax.m - p - 1
  let sh := Int.tdiv (n + 1 - ax.nnp) 2
  let gs := gsp ax (s + sh) - sh - p
  let gw := gsp ax (s + w - 1 + sh) - sh + 1 - gs
  let gl := if r = 0 then s + sh - sh else s + sh
  let glw := if r = 0 then w + sh else w
  { elemSize := ax.nnp, elemStart := s, elemWidth := w,
    geomSize := n + 1, geomLstart := gl, geomLwidth := if r = P-1 then n + 1 - gl else glw,
    geomGstart := gs + sh, geomGwidth := if r = P-1 then n + 1 - (gs + sh) else gw,
    nodeShift := sh, nodeSize := ax.nnp, nodeLstart := s, nodeLwidth := w,
    nodeGstart := gs, nodeGwidth := gw }

theorem shift_bounds {ax : Axis K} (h : WF ax) :
    0 ≤ Int.tdiv (ax.m - ax.p - 1 + 1 - ax.nnp) 2 ∧
    2 * Int.tdiv (ax.m - ax.p - 1 + 1 - ax.nnp) 2 ≤ ax.m - ax.p - ax.nnp ∧
    ax.m - ax.p - ax.nnp ≤ 2 * Int.tdiv (ax.m - ax.p - 1 + 1 - ax.nnp) 2 + 1 := by
  obtain ⟨a, b, _⟩ := nnp_bounds h
  rw [Int.tdiv_eq_ediv_of_nonneg (by omega)]
  omega

/-- If the Greville average equals its smallest term, all its terms agree. -/
theorem grev_min {i p m : Int} {U : Int → K} (hs : SortedKnots m U) (hp : 1 ≤ p) (h0 : 0 ≤ i) (h1 : i + p ≤ m)
    (h3 : greville i p U = U (i+1)) : U (i+p) = U (i+1) := by
  by_contra hne
  have hlt' : U (i+1) < U (i+p) :=
    lt_of_le_of_ne (sorted_mono hs (by omega) (by omega) (by omega)) (Ne.symm hne)
  obtain ⟨q, hq'⟩ : ∃ q : Nat, p = q + 1 := ⟨(p-1).toNat, by omega⟩
  have hK : ((p : Int) : K) = (q:K) + 1 := by rw [hq']; push_cast; ring
  have hgs : ∀ j : Nat, (j:Int) < p → (j:K) * U (i+1) ≤ grevSum i U j := by
    intro j
    induction j with
    | zero => intro _; unfold grevSum; simp
    | succ j ih =>
      intro hj
      push_cast at hj
      have := ih (by omega)
      rw [show grevSum i U (j+1) = grevSum i U j + U (i + (j:Int) + 1) from rfl]
      have h10 := sorted_mono hs (i := i + 1) (j := i + (j:Int) + 1) (by omega) (by omega) (by omega)
      push_cast at h10 ⊢
      linarith
  have hsum : grevSum i U p.toNat = (p:K) * U (i+1) := by
    unfold greville at h3
    rw [if_pos (by omega)] at h3
    have hpp : (p:K) ≠ 0 := by exact_mod_cast (by omega : p ≠ 0)
    field_simp at h3
    linarith
  rw [show p.toNat = q + 1 by omega, show grevSum i U (q+1) = grevSum i U q + U (i + (q:Int) + 1) from rfl,
    show i + (q:Int) + 1 = i + p by omega, hK] at hsum
  have := hgs q (by omega)
  linarith

/-- If the Greville average equals its largest term, all its terms agree. -/
theorem grev_max {i p m : Int} {U : Int → K} (hs : SortedKnots m U) (hp : 1 ≤ p) (h0 : 0 ≤ i) (h1 : i + p ≤ m)
    (h3 : greville i p U = U (i+p)) : U (i+1) = U (i+p) := by
  by_contra hne
  have hlt' : U (i+1) < U (i+p) :=
    lt_of_le_of_ne (sorted_mono hs (by omega) (by omega) (by omega)) hne
  obtain ⟨q, hq'⟩ : ∃ q : Nat, p = q + 1 := ⟨(p-1).toNat, by omega⟩
  have hK : ((p : Int) : K) = (q:K) + 1 := by rw [hq']; push_cast; ring
  have hsum : grevSum i U p.toNat = (p:K) * U (i+p) := by
    unfold greville at h3
    rw [if_pos (by omega)] at h3
    have hpp : (p:K) ≠ 0 := by exact_mod_cast (by omega : p ≠ 0)
    field_simp at h3
    linarith
  have hup : ∀ j : Nat, (j:Int) < p → grevSum i U (j+1) ≤ U (i+1) + (j:K) * U (i+p) := by
    intro j
    induction j with
    | zero => intro _; simp [grevSum]
    | succ j ih =>
      intro hj
      push_cast at hj
      have := ih (by omega)
      rw [show grevSum i U (j+1+1) = grevSum i U (j+1) + U (i + ((j+1:Nat):Int) + 1) from rfl]
      have h10 := sorted_mono hs (i := i + ((j+1:Nat):Int) + 1) (j := i + p) (by push_cast; omega) (by push_cast; omega) (by omega)
      push_cast at h10 ⊢
      linarith
  have := hup q (by omega)
  rw [show q + 1 = p.toNat by omega, hsum, hK] at this
  linarith

/-- The span found for the `i`-th Greville point contains it in the closed sense that matters here:
basis function `i` is one of the `p+1` functions of that span, and the span index is non-decreasing in `i`. -/
theorem grevSpan_spec {ax : Axis K} (h : PreWF ax) :
    ∃ g : Int → Int, (∀ i, 0 ≤ i → i ≤ ax.m - ax.p - 1 → grevSpan ax i = .ok (g i) ∧
        ax.p ≤ g i ∧ g i ≤ ax.m - ax.p - 1 ∧ i ≤ g i ∧ g i ≤ i + ax.p) ∧
      (∀ i j, 0 ≤ i → i ≤ j → j ≤ ax.m - ax.p - 1 → g i ≤ g j) := by
  have hp := h.legal.degree
  have hm := h.legal.enough
  have hs := h.legal.sorted
  -- the span found for an arbitrary value
  have key : ∀ u : K, ∃ k, findSpan (ax.m+1).toNat (ax.m-ax.p-1) ax.p u ax.U = some k ∧ ax.p ≤ k ∧ k ≤ ax.m-ax.p-1 ∧
      ((u ≤ ax.U ax.p ∧ k = ax.p) ∨ (ax.U ax.p < u ∧ ax.U (ax.m - ax.p) ≤ u ∧ k = ax.m - ax.p - 1) ∨
        (ax.U ax.p < u ∧ ax.U k ≤ u ∧ u < ax.U (k+1))) := by
    intro u
    have hc := C10_find_span_clamps (ax.m-ax.p-1) ax.p ax.U u (ax.m+1).toNat
    rw [show ax.m - ax.p - 1 + 1 = ax.m - ax.p by ring] at hc
    rcases le_or_gt u (ax.U ax.p) with h1 | h1
    · exact ⟨_, hc.1 h1, le_refl _, by omega, Or.inl ⟨h1, rfl⟩⟩
    · rcases le_or_gt (ax.U (ax.m-ax.p)) u with h2 | h2
      · exact ⟨_, hc.2 h1 h2, by omega, le_refl _, Or.inr (Or.inl ⟨h1, h2, rfl⟩)⟩
      · obtain ⟨k, a, b, c, d, e, _⟩ := C10_find_span_brackets (ax.m-ax.p-1) ax.p ax.U u (ax.m+1).toNat
          (by rw [show ax.m - ax.p - 1 + ax.p + 1 = ax.m by ring]; exact hs) (by omega) (by omega) (by omega) h1
          (by rwa [show ax.m - ax.p - 1 + 1 = ax.m - ax.p by ring])
        exact ⟨k, a, b, c, Or.inr (Or.inr ⟨h1, d, e⟩)⟩
  choose f hf using key
  refine ⟨fun i => f (greville i ax.p ax.U), ?_, ?_⟩
  · intro i h0 h1
    obtain ⟨a, b, c, d⟩ := hf (greville i ax.p ax.U)
    obtain ⟨g1, g2, _, _⟩ := C15_greville_in_support i ax.p ax.m ax.U hs hp h0 (by omega)
    refine ⟨by unfold grevSpan; rw [a]; rfl, b, c, ?_, ?_⟩ <;> dsimp only
    · rcases d with ⟨d1, d2⟩ | ⟨d1, d2, d3⟩ | ⟨d1, d2, d3⟩
      · -- clamped at the left end: U[i+1] ≤ U[p]
        rw [d2]
        by_contra hc
        have hlt : ax.U (i+1-ax.p) < ax.U (i+1) := by
          have := h.legal.mult (i+1-ax.p) (by omega) (by omega)
          rwa [show i + 1 - ax.p + ax.p = i + 1 by ring] at this
        rcases le_or_gt ax.p (i + 1 - ax.p) with hq | hq
        · have := sorted_mono hs (i := ax.p) (j := i+1-ax.p) (by omega) hq (by omega)
          linarith
        · -- all of U[p..i+1] equal U[p]; the average forces equality
          have e1 : ax.U (i+1) = ax.U ax.p :=
            le_antisymm (le_trans g1 d1) (sorted_mono hs (by omega) (by omega) (by omega))
          have h2 := C15_greville_increasing i ax.p ax.m ax.U hs hp h0 (by omega)
          -- g_i ≤ U p = U(i+1) ≤ g_i, so g_i = U (i+1), hence U(i+p) = U(i+1)
          have h3 : greville i ax.p ax.U = ax.U (i+1) := le_antisymm (by rw [e1]; exact d1) g1
          have h5 := grev_min hs hp h0 (by omega) h3
          have h6 := h.legal.mult ax.p (by omega) (by omega)
          have h7 := sorted_mono hs (i := ax.p + ax.p) (j := i + ax.p) (by omega) (by omega) (by omega)
          linarith
      · omega
      · by_contra hc
        have := sorted_mono hs (i := f (greville i ax.p ax.U) + 1) (j := i + 1) (by omega) (by omega) (by omega)
        linarith
    · rcases d with ⟨d1, d2⟩ | ⟨d1, d2, d3⟩ | ⟨d1, d2, d3⟩
      · omega
      · rw [d3]
        by_contra hc
        -- i + p < n: U[n+1] ≤ g_i ≤ U[i+p] ≤ U[n+1]
        have h2 := sorted_mono hs (i := i + ax.p) (j := ax.m - ax.p) (by omega) (by omega) (by omega)
        have h3 := h.legal.mult (i+ax.p) (by omega) (by omega)
        have h4 := C15_greville_increasing i ax.p ax.m ax.U hs hp h0 (by omega)
        by_cases h5 : i + 1 + ax.p < ax.m
        · have h6 := h.legal.mult (i+1) (by omega) h5
          have h7 := sorted_mono hs (i := i + 1 + ax.p) (j := ax.m - ax.p) (by omega) (by omega) (by omega)
          have e1 : ax.U (i+1+ax.p) = ax.U (i+ax.p) := by
            apply le_antisymm
            · linarith
            · exact sorted_mono hs (by omega) (by omega) (by omega)
          have h8 : greville i ax.p ax.U = ax.U (i+ax.p) := le_antisymm g2 (by linarith)
          -- the mean equals the maximum, so U[i+1] = U[i+p]
          have h9 := grev_max hs hp h0 (by omega) h8
          linarith
        · omega
      · by_contra hc
        have h2 := sorted_mono hs (i := i + 1 + ax.p) (j := f (greville i ax.p ax.U)) (by omega) (by omega) (by omega)
        have h3 := h.legal.mult (i+1) (by omega) (by omega)
        -- U[i+p+1] ≤ U k ≤ g_i ≤ U[i+p]: impossible unless U[i+1] < U[i+p+1] = U[i+p] = g_i
        have h4 := sorted_mono hs (i := i + ax.p) (j := i + 1 + ax.p) (by omega) (by omega) (by omega)
        have h8 : greville i ax.p ax.U = ax.U (i+ax.p) := le_antisymm g2 (by linarith)
        have h9 := grev_max hs hp h0 (by omega) h8
        linarith
  · intro i j h0 hij h1
    have hle : greville i ax.p ax.U ≤ greville j ax.p ax.U := by
      obtain ⟨d, rfl⟩ : ∃ d : Nat, j = i + d := ⟨(j-i).toNat, by omega⟩
      clear hij
      induction d with
      | zero => simp
      | succ d ih =>
        have := ih (by push_cast at h1; omega)
        have h2 := (C15_greville_increasing (i+d) ax.p ax.m ax.U hs hp (by omega) (by push_cast at h1; omega)).1
        rw [show i + ((d+1:Nat):Int) = i + d + 1 by push_cast; ring]
        exact le_trans this h2
    dsimp only
    generalize greville i ax.p ax.U = u at *
    generalize greville j ax.p ax.U = v at *
    obtain ⟨_, a1, a2, a⟩ := hf u
    obtain ⟨_, b1, b2, b⟩ := hf v
    rcases a with ⟨c1, c2⟩ | ⟨c1, c2, c3⟩ | ⟨c1, c2, c3⟩
    · omega
    · rcases b with ⟨d1, d2⟩ | ⟨d1, d2, d3⟩ | ⟨d1, d2, d3⟩
      · linarith
      · omega
      · have := sorted_mono hs (i := f v + 1) (j := ax.m - ax.p) (by omega) (by omega) (by omega)
        linarith
    · rcases b with ⟨d1, d2⟩ | ⟨d1, d2, d3⟩ | ⟨d1, d2, d3⟩
      · linarith
      · omega
      · by_contra hc
        have := sorted_mono hs (i := f v + 1) (j := f u) (by omega) (by omega) (by omega)
        linarith

theorem gsp_spec {ax : Axis K} (h : PreWF ax) :
    (∀ i, 0 ≤ i → i ≤ ax.m - ax.p - 1 → grevSpan ax i = .ok (gsp ax i) ∧
        ax.p ≤ gsp ax i ∧ gsp ax i ≤ ax.m - ax.p - 1 ∧ i ≤ gsp ax i ∧ gsp ax i ≤ i + ax.p) ∧
      (∀ i j, 0 ≤ i → i ≤ j → j ≤ ax.m - ax.p - 1 → gsp ax i ≤ gsp ax j) := by
  obtain ⟨g, hg, hm⟩ := grevSpan_spec h
  have e : ∀ i, 0 ≤ i → i ≤ ax.m - ax.p - 1 → gsp ax i = g i := by
    intro i h0 h1
    have := (hg i h0 h1).1
    unfold grevSpan at this
    rw [Res.ofOption_eq_ok] at this
    unfold gsp; rw [this]; rfl
  constructor
  · intro i h0 h1; rw [e i h0 h1]; exact hg i h0 h1
  · intro i j h0 hij h1; rw [e i h0 (by omega), e j (by omega) h1]; exact hm i j h0 hij h1

theorem collocDir_eq {ax : Axis K} (h : WF ax) {P r : Int} (hP : 1 ≤ P) (hN : P ≤ ax.nnp)
    (h0 : 0 ≤ r) (h1 : r < P) :
    collocDir ax P r ax.nnp (dist1D P r ax.nnp).2 (dist1D P r ax.nnp).1 = .ok (colDir ax P r) := by
  have hg := fun i h0 h1 => ((gsp_spec h.toPreWF).1 i h0 h1).1
  obtain ⟨a, b, c, d, e⟩ := bal_range hP hN h0 h1
  obtain ⟨n1, n2, _⟩ := nnp_bounds h
  obtain ⟨s1, s2, s3⟩ := shift_bounds h
  have := h.legal.degree
  unfold collocDir colDir
  dsimp only
  generalize (dist1D P r ax.nnp).2 = s at *
  generalize (dist1D P r ax.nnp).1 = w at *
  generalize Int.tdiv (ax.m - ax.p - 1 + 1 - ax.nnp) 2 = sh at *
  rw [hg _ (by omega) (by omega), Res.ok_bind, hg _ (by omega) (by omega), Res.ok_bind]

/-! ### Lifting to all processes -/

/-- The layout of a direction for process coordinate `r` of `P`. -/
def dirAt (colloc : Bool) (ax : Axis K) (P r : Int) : Dir := if colloc then colDir ax P r else galDir ax P r

/-- The layout of all directions. -/
def mkDirs (colloc : Bool) : List (Axis K) → List Int → List Int → List Dir
  | ax :: as, P :: Ps, r :: rs => dirAt colloc ax P r :: mkDirs colloc as Ps rs
  | _, _, _ => []

theorem setUpAxes_wf : ∀ {axes axes' : List (Axis K)}, (∀ ax ∈ axes, Reached ax) → setUpAxes axes = .ok axes' →
    ∀ ax ∈ axes', WF ax := by
  intro axes
  induction axes with
  | nil => intro axes' _ h; simp [setUpAxes] at h; subst h; simp
  | cons a as ih =>
    intro axes' hr h
    unfold setUpAxes at h
    cases hs : Ax.setUp a with
    | mk r a' =>
      rw [hs] at h
      cases r with
      | ok u =>
        simp only [Res.bind_eq_ok] at h
        obtain ⟨as', h1, h2⟩ := h
        simp only [Res.ok.injEq] at h2
        subst h2
        intro ax hx
        rcases List.mem_cons.1 hx with rfl | hx
        · have := setUp_wf a (hr a (by simp)) (by rw [hs])
          rwa [hs] at this
        · exact ih (fun b hb => hr b (by simp [hb])) h1 ax hx
      | err e => simp at h
      | ub => simp at h

theorem dirs_eq (colloc : Bool) : ∀ {axes : List (Axis K)} {Ps cs : List Int}, (∀ ax ∈ axes, WF ax) →
    Fits (axes.map (gridSize colloc)) Ps → InBox Ps cs →
    dirs colloc axes Ps cs ((Ps.zip (cs.zip (axes.map (gridSize colloc)))).map fun a => dist1D a.1 a.2.1 a.2.2)
      = .ok (mkDirs colloc axes Ps cs) := by
  intro axes
  induction axes with
  | nil =>
    intro Ps cs _ hf hb
    cases hf; cases hb; rfl
  | cons a as ih =>
    intro Ps cs hw hf hb
    cases hf with
    | cons h1 h2 =>
      cases hb with
      | cons h3 h4 =>
        have wa := hw a (by simp)
        simp only [List.map_cons, List.zip_cons_cons, dirs]
        rw [ih (fun b hb => hw b (by simp [hb])) h2 h4]
        cases colloc
        · simp only [gridSize, Bool.false_eq_true, if_false] at h1 ⊢
          rw [galerkinDir_eq wa.toPreWF h1.1 h1.2 h3.1 h3.2]
          simp [mkDirs, dirAt]
        · simp only [gridSize, if_true] at h1 ⊢
          rw [collocDir_eq wa h1.1 h1.2 h3.1 h3.2]
          simp [mkDirs, dirAt]

theorem stage1_all {g2 : Guess2} {g3 : Guess3} {colloc : Bool} {size rank : Int} {procs : List Int}
    {axes : List (Axis K)} {L : Layout K} (hr : ∀ ax ∈ axes, Reached ax)
    (h : stage1 g2 g3 colloc size rank procs axes = .ok L) :
    (∀ ax ∈ L.axes, WF ax) ∧ Fits (L.axes.map (gridSize colloc)) L.procs ∧ prod L.procs = size ∧
    (∀ r, 0 ≤ r → r < size → ∃ c, InBox L.procs c ∧
      stage1 g2 g3 colloc size r procs axes = .ok ⟨L.axes, L.procs, c, mkDirs colloc L.axes L.procs c⟩) ∧
    (∀ c, InBox L.procs c → ∃ r, (0 ≤ r ∧ r < size ∧
        stage1 g2 g3 colloc size r procs axes = .ok ⟨L.axes, L.procs, c, mkDirs colloc L.axes L.procs c⟩) ∧
      ∀ r', 0 ≤ r' → r' < size → (∃ d, stage1 g2 g3 colloc size r' procs axes = .ok ⟨L.axes, L.procs, c, d⟩) → r' = r) := by
  unfold stage1 at h
  simp only [Res.bind_eq_ok] at h
  obtain ⟨axes', ha, pr, hp, ws, hd, ds, hds, he⟩ := h
  obtain ⟨n', i⟩ := pr
  simp only [Res.ok.injEq] at he
  subst he
  have hw := setUpAxes_wf hr ha
  obtain ⟨c1, c2, -, c4, c5⟩ := C01_processor_grid_bijection g2 g3 size rank _ _ _ _ hp
  dsimp only at *
  have hlen : 1 ≤ axes'.length ∧ axes'.length ≤ 3 := by
    have := ((C02_distribute_iff _ _).1 hd).1
    have e1 : axes'.length = n'.length := by have := List.Forall₂.length_eq c2; simpa using this
    obtain ⟨c, hc, hb⟩ : ∃ c, partition g2 g3 size rank (axes'.map (gridSize colloc)) procs = .ok (n', c) ∧ InBox n' c := by
      have hrange : 0 ≤ rank ∧ rank < size := by
        have := (partition_ok hp)
        exact ⟨by omega, by omega⟩
      exact c4 rank hrange.1 hrange.2
    rw [hp] at hc
    simp only [Res.ok.injEq, Prod.mk.injEq, true_and] at hc
    subst hc
    have e2 := List.Forall₂.length_eq hb
    simp only [List.length_zip, List.length_map] at this
    omega
  have key : ∀ r c, InBox n' c → partition g2 g3 size r (axes'.map (gridSize colloc)) procs = .ok (n', c) →
      stage1 g2 g3 colloc size r procs axes = .ok ⟨axes', n', c, mkDirs colloc axes' n' c⟩ := by
    intro r c hb hc
    have hdist : distribute (n'.zip (c.zip (axes'.map (gridSize colloc)))) =
        .ok ((n'.zip (c.zip (axes'.map (gridSize colloc)))).map fun a => dist1D a.1 a.2.1 a.2.2) := by
      rw [C02_distribute_iff]
      refine ⟨?_, ?_, rfl⟩
      · have e1 : axes'.length = n'.length := by have := List.Forall₂.length_eq c2; simpa using this
        have e2 := List.Forall₂.length_eq hb
        simp only [List.length_zip, List.length_map]
        omega
      · clear hd hds hp hc c1 c4 c5 hw ha hlen
        induction axes' generalizing n' c with
        | nil => cases c2; cases hb; simp
        | cons a as ih =>
          cases c2 with
          | cons h1 h2 =>
            cases hb with
            | cons h3 h4 =>
              intro x hx
              simp only [List.map_cons, List.zip_cons_cons, List.mem_cons] at hx
              rcases hx with rfl | hx
              · exact ⟨h1.1, h3, by dsimp only; omega⟩
              · exact ih _ h2 _ h4 x hx
    unfold stage1
    rw [ha, Res.ok_bind]
    dsimp only
    rw [hc, Res.ok_bind]
    dsimp only
    rw [hdist, Res.ok_bind, dirs_eq colloc hw c2 hb, Res.ok_bind]
  refine ⟨hw, c2, c1, ?_, ?_⟩
  · intro r h0 h1
    obtain ⟨c, hc, hb⟩ := c4 r h0 h1
    exact ⟨c, hb, key r c hb hc⟩
  · intro c hb
    obtain ⟨r, ⟨h0, h1, hc⟩, hu⟩ := c5 c hb
    refine ⟨r, ⟨h0, h1, key r c hb hc⟩, ?_⟩
    rintro r' h0' h1' ⟨d, hd'⟩
    apply hu
    refine ⟨h0', h1', ?_⟩
    unfold stage1 at hd'
    rw [ha, Res.ok_bind] at hd'
    simp only [Res.bind_eq_ok] at hd'
    obtain ⟨pr, hp', ws', _, ds', _, he⟩ := hd'
    obtain ⟨x, y⟩ := pr
    simp only [Res.ok.injEq, Layout.mk.injEq, true_and] at he
    rw [hp', he.1, he.2.1]

/-- Tilings of each direction tile the box: every multi-index lies in the block of exactly one tuple of process
coordinates. -/
theorem tiles_owner {P N : Int} {start len : Int → Int} (T : Tiles P N start len) (hP : 1 ≤ P) {i : Int} (h0 : 0 ≤ i) (h1 : i < N) :
    ∃ r, Owner P start len i r ∧ ∀ r', Owner P start len i r' → r' = r := by
  have mono : ∀ (d : Nat) (a : Int), 0 ≤ a → a + d < P → start a ≤ start (a+d) := by
    intro d
    induction d with
    | zero => intro a _ _; simp
    | succ d ih =>
      intro a ha hd
      push_cast at hd ⊢
      have h1 := ih a ha (by omega)
      have h2 := T.next (a+d) (by omega) (by omega)
      have h3 := T.pos (a+d) (by omega) (by omega)
      rw [← add_assoc, h2]; omega
  have mono' : ∀ a b, 0 ≤ a → a < b → b < P → start a + len a ≤ start b := by
    intro a b ha hab hb
    have h2 := T.next a ha (by omega)
    have h3 := mono (b - (a+1)).toNat (a+1) (by omega) (by omega)
    rw [show a + 1 + ((b-(a+1)).toNat : Int) = b by omega] at h3
    omega
  have ex : ∀ n : Nat, (n:Int) < P → (∃ r, Owner P start len i r) ∨ start n ≤ i := by
    intro n
    induction n with
    | zero => intro _; right; have := T.first; simp only [Nat.cast_zero, this]; exact h0
    | succ n ih =>
      intro hn
      push_cast at hn ⊢
      rcases ih (by omega) with h | h
      · left; exact h
      · have h2 := T.next n (by omega) hn
        by_cases h3 : i < start n + len n
        · left; exact ⟨n, by omega, by omega, h, h3⟩
        · right; omega
  have : ∃ r, Owner P start len i r := by
    rcases ex (P-1).toNat (by omega) with h | h
    · exact h
    · rw [show ((P-1).toNat : Int) = P - 1 by omega] at h
      exact ⟨P-1, by omega, by omega, h, by have := T.last; omega⟩
  obtain ⟨r, hr⟩ := this
  refine ⟨r, hr, ?_⟩
  rintro r' ⟨a1, a2, a3, a4⟩
  obtain ⟨b1, b2, b3, b4⟩ := hr
  rcases lt_trichotomy r' r with hc | hc | hc
  · have := mono' r' r a1 hc b2; omega
  · exact hc
  · have := mono' r r' b1 hc a2; omega

theorem tiles_range {P N : Int} {start len : Int → Int} (T : Tiles P N start len) {r : Int} (h0 : 0 ≤ r) (h1 : r < P) :
    0 ≤ start r ∧ 1 ≤ len r ∧ start r + len r ≤ N := by
  have mono : ∀ (d : Nat) (a : Int), 0 ≤ a → a + d < P → start a + len a ≤ start (a+d) + len (a+d) ∧ start a ≤ start (a+d) := by
    intro d
    induction d with
    | zero => intro a _ _; simp
    | succ d ih =>
      intro a ha hd
      push_cast at hd ⊢
      have h1 := ih a ha (by omega)
      have h2 := T.next (a+d) (by omega) (by omega)
      have h3 := T.pos (a+d) (by omega) (by omega)
      have h4 := T.pos (a+d+1) (by omega) (by omega)
      rw [← add_assoc, h2]; omega
  have a := mono r.toNat 0 (by omega) (by omega)
  have b := mono (P-1-r).toNat r h0 (by omega)
  rw [show (0:Int) + (r.toNat : Int) = r by omega, T.first] at a
  rw [show r + ((P-1-r).toNat : Int) = P - 1 by omega, T.last] at b
  exact ⟨a.2, T.pos r h0 h1, b.1⟩

/-- Tilings of every direction. -/
theorem box_owner (colloc : Bool) (st ln : Dir → Int) (sz : Axis K → Int) :
    ∀ {axes : List (Axis K)} {Ps : List Int}, Fits (axes.map (gridSize colloc)) Ps →
    (∀ ax ∈ axes, ∀ P, 1 ≤ P → P ≤ gridSize colloc ax →
      Tiles P (sz ax) (fun r => st (dirAt colloc ax P r)) (fun r => ln (dirAt colloc ax P r))) →
    ∀ {x : List Int}, InBox (axes.map sz) x →
    ∃ c, (InBox Ps c ∧ InBlock ((mkDirs colloc axes Ps c).map st) ((mkDirs colloc axes Ps c).map ln) x) ∧
      ∀ c', InBox Ps c' → InBlock ((mkDirs colloc axes Ps c').map st) ((mkDirs colloc axes Ps c').map ln) x → c' = c := by
  intro axes
  induction axes with
  | nil =>
    intro Ps hf _ x hx
    cases hf; cases hx
    refine ⟨[], ⟨.nil, .nil⟩, ?_⟩
    intro c' hc _; cases hc; rfl
  | cons a as ih =>
    intro Ps hf ht x hx
    cases hf with
    | cons h1 h2 =>
      cases hx with
      | cons h3 h4 =>
        obtain ⟨c, ⟨c1, c2⟩, c3⟩ := ih h2 (fun b hb => ht b (by simp [hb])) h4
        obtain ⟨r, r1, r2⟩ := tiles_owner (ht a (by simp) _ h1.1 h1.2) h1.1 h3.1 h3.2
        refine ⟨r :: c, ⟨.cons ⟨r1.1, r1.2.1⟩ c1, .cons ⟨r1.2.2.1, r1.2.2.2⟩ c2⟩, ?_⟩
        intro c' hb hbl
        cases hb with
        | cons e1 e2 =>
          cases hbl with
          | cons f1 f2 =>
            rw [r2 _ ⟨e1.1, e1.2, f1.1, f1.2⟩, c3 _ e2 f2]

theorem mem_mkDirs (colloc : Bool) : ∀ {axes : List (Axis K)} {Ps cs : List Int},
    Fits (axes.map (gridSize colloc)) Ps → InBox Ps cs → ∀ d ∈ mkDirs colloc axes Ps cs,
    ∃ ax ∈ axes, ∃ P r, 1 ≤ P ∧ P ≤ gridSize colloc ax ∧ 0 ≤ r ∧ r < P ∧ d = dirAt colloc ax P r := by
  intro axes
  induction axes with
  | nil => intro Ps cs hf hb; cases hf; cases hb; simp [mkDirs]
  | cons a as ih =>
    intro Ps cs hf hb
    cases hf with
    | cons h1 h2 =>
      cases hb with
      | cons h3 h4 =>
        intro d hd
        rcases List.mem_cons.1 hd with rfl | hd
        · exact ⟨a, by simp, _, _, h1.1, h1.2, h3.1, h3.2, rfl⟩
        · obtain ⟨ax, h, rest⟩ := ih h2 h4 d hd
          exact ⟨ax, by simp [h], rest⟩

end PetIGA.Lay
