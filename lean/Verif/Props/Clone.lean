import Verif.Props.SetUp
import Verif.Props.Quad
import Verif.Props.Span
import Verif.Lemmas.Layout
import Mathlib.Data.List.Forall2

/-!
C67 (what a successful set-up describes) and C59 (clone).
-/

set_option linter.unusedSectionVars false

namespace PetIGA.SetUp
open PetIGA.Ax PetIGA.Lay PetIGA.Rule PetIGA.Quad PetIGA.Part

variable {K V : Type} [Field K] [LinearOrder K] [IsStrictOrderedRing K]

/-! ### C67 -/

/-- Partition, numbering and tables belong to the object's current axes and processor grid. -/
structure Describes (s : IGA K V) : Prop where
  partition : ∃ L, s.layout = some L ∧ s.grid = some (s.dof, L) ∧ L.axes = s.axes.take s.dim.toNat ∧
    L.procs = s.procs.take s.dim.toNat
  tables : ∀ i : Nat, i < 3 → ∃ ax b, s.axes[i]? = some ax ∧ s.bases[i]? = some (some b) ∧ b.nen = ax.p + 1 ∧
    (s.colloc = false → b.elems.map Elem.offset = ax.span.map fun k => k - ax.p) ∧
    (s.colloc = true → b.elems.length = ax.nnp.toNat)

theorem initQuadrature_shape {cb : Int → K → V} {huge : K} {bt : BasisType} {ax : Axis K} {r r' : Rule K} {b : Basis K V}
    (h : initQuadrature cb huge bt ax r = (.ok (), r', some b)) :
    b.nen = ax.p + 1 ∧ b.elems.map Elem.offset = ax.span.map fun k => k - ax.p := by
  have off : ∀ nqp X Wt k, (mkElem cb ax.p ax.U nqp huge X Wt k).offset = k - ax.p := by intro nqp X Wt k; rfl
  have hm : ∀ nqp X Wt, (ax.span.map (mkElem cb ax.p ax.U nqp huge X Wt)).map Elem.offset = ax.span.map fun k => k - ax.p := by
    intro nqp X Wt; rw [List.map_map]; rfl
  unfold initQuadrature at h
  generalize (if r.nqp < 1 then Rule.setSize r (ax.p+1) else (.ok (), r)) = y at h
  obtain ⟨e, r1⟩ := y
  cases e with
  | err e => simp at h
  | ub => simp at h
  | ok u =>
    simp only at h
    by_cases hc : bt ≠ .bspline ∧ ¬ c0Ok ax.p ax.m ax.U ax.m.toNat 1
    · rw [if_pos hc] at h; simp at h
    rw [if_neg hc] at h
    cases hx : r1.point with
    | none => simp [hx] at h
    | some X =>
      cases hw : r1.weight with
      | none => simp [hx, hw] at h
      | some Wt =>
        simp only [hx, hw] at h
        by_cases hred : r1.type ≠ .reduced
        · rw [if_pos hred] at h
          simp only [Prod.mk.injEq, Option.some.injEq, true_and] at h
          obtain ⟨_, rfl⟩ := h
          exact ⟨rfl, hm _ _ _⟩
        · rw [if_neg hred] at h
          by_cases hnel : ax.span.length > 2
          · rw [if_pos hnel] at h
            generalize (if r1.nqp > 1 then Rule.setSize r1 (r1.nqp-1) else (.ok (), r1)) = z at h
            obtain ⟨e, r2⟩ := z
            cases e with
            | err e => simp at h
            | ub => simp at h
            | ok u =>
              cases hx2 : r2.point with
              | none => simp [hx2] at h
              | some X2 =>
                cases hw2 : r2.weight with
                | none => simp [hx2, hw2] at h
                | some W2 =>
                  simp only [hx2, hw2, Prod.mk.injEq, Option.some.injEq, true_and] at h
                  obtain ⟨_, rfl⟩ := h
                  refine ⟨rfl, ?_⟩
                  simp only
                  apply List.ext_getElem
                  · simp
                  · intro i h1 h2
                    simp only [List.getElem_map, List.getElem_mapIdx]
                    split_ifs <;> rfl
          · rw [if_neg hnel] at h
            simp only [Prod.mk.injEq, Option.some.injEq, true_and] at h
            obtain ⟨_, rfl⟩ := h
            exact ⟨rfl, hm _ _ _⟩

theorem collocElems_length {cb : Int → K → V} {ax : Axis K} {shift : Int} : ∀ {l : List Nat} {es : List (Elem K V)},
    collocElems cb ax shift l = .ok es → es.length = l.length := by
  intro l
  induction l with
  | nil => intro es h; cases h; rfl
  | cons i l ih =>
    intro es h
    unfold collocElems at h
    dsimp only at h
    obtain ⟨k, _, h⟩ := Res.bind_eq_ok.1 h
    obtain ⟨t, h1, h⟩ := Res.bind_eq_ok.1 h
    cases h
    simp [ih h1]

theorem initCollocation_shape {cb : Int → K → V} {bt : BasisType} {ax : Axis K} {b : Basis K V}
    (h : initCollocation cb bt ax = .ok b) : b.nen = ax.p + 1 ∧ b.elems.length = ax.nnp.toNat := by
  unfold initCollocation at h
  split_ifs at h
  dsimp only at h
  obtain ⟨es, h1, h⟩ := Res.bind_eq_ok.1 h
  cases h
  exact ⟨rfl, by simpa using collocElems_length h1⟩

theorem get_set3 {α : Type} {l : List α} (hl : l.length = 3) (f : Fin 3 → α) (i : Nat) (hi : i < 3) :
    (((l.set 0 (f 0)).set 1 (f 1)).set 2 (f 2))[i]? = some (f ⟨i, hi⟩) := by
  rw [set3 hl]
  match i, hi with
  | 0, _ => rfl
  | 1, _ => rfl
  | 2, _ => rfl

/-- **C67, partial.**  The first `IGASetUp` of an object, or the first after `IGAReset`, when it succeeds, leaves a
partition, a numbering and tables that belong to the object's axes and processor grid; the partition is the one of
`IGASetUp_Stage1` for the axes and processor numbers the user configured.  Missing: later set-ups, see
`C67_axis_refuted` and `C67_processors_refuted`. -/
theorem C67_setup_describes_partial (W : World K V) (s : IGA K V) (h : Sane s) (hs : s.setup = false) (h0 : s.stage = 0)
    (hok : (setUp W s).1 = .ok ()) :
    Describes (setUp W s).2 ∧ (setUp W s).2.dim = s.dim ∧
      ∃ L, Lay.stage1 W.g2 W.g3 s.colloc W.size W.rank (s.procs.take s.dim.toNat) (s.axes.take s.dim.toNat) = .ok L ∧
        (setUp W s).2.layout = some L := by
  have hd : ¬ s.dim < 1 := by
    intro hd
    simp [setUp, hs, hd] at hok
  rcases setUp_cases W s hs hd with ⟨h1, h2⟩ | ⟨h1, h2⟩
  · have hcomp := (sane_setUp h hok).2
    rw [h2] at hok hcomp ⊢
    obtain ⟨L, hL, e1⟩ := stage1_ok (s := { s with setup := true }) h0 h1
    obtain ⟨f1, f2, f3, f4, f5, f6, f7, f8, f9⟩ := stage1_frame W { s with setup := true }
    obtain ⟨k0, k1, k2, k3, k4, k5, k6, k7, k8, k9, k10, k11, k12, k13, k14⟩ := stage2_frame (stage1 W { s with setup := true }).2
    have fr := stage3_frame W (stage2 (stage1 W { s with setup := true }).2).2
    obtain ⟨l1, l2⟩ := layStage1_length hL
    have hlay : (stage3 W (stage2 (stage1 W { s with setup := true }).2).2).2.layout = some L := by
      rw [fr.layout, k11, e1]
    have hdim : (stage3 W (stage2 (stage1 W { s with setup := true }).2).2).2.dim = s.dim := by
      rw [fr.dim, k1, f1]
    have hd3 : s.dim.toNat ≤ 3 := by have := h.dim; omega
    have la : L.axes.length = s.dim.toNat := by
      rw [l1]; simp only [List.length_take, h.lens.1]; omega
    have lp : L.procs.length = s.dim.toNat := by
      rw [l2]; simp only [List.length_take, h.lens.2.2.2.2]; omega
    refine ⟨⟨⟨L, hlay, ?_, ?_, ?_⟩, ?_⟩, hdim, L, hL, hlay⟩
    · obtain ⟨L', hl', hg'⟩ := hcomp.layout
      rw [hlay] at hl'; cases hl'; exact hg'
    · rw [hdim, fr.axes, k9, e1]; simp [← la]
    · rw [hdim, fr.procs, k10, e1]; simp [← lp]
    · intro i hi
      obtain ⟨r', b, e, ht⟩ := stage3_ok hok
      obtain ⟨ax, r, bt, ha, hr, hb, hq⟩ := ht ⟨i, hi⟩
      have hbl : (stage2 (stage1 W { s with setup := true }).2).2.bases.length = 3 := by rw [k8, f8]; exact h.lens.2.2.2.1
      refine ⟨ax, b ⟨i, hi⟩, by rw [fr.axes]; exact ha, ?_, ?_⟩
      · rw [e]; exact get_set3 hbl (fun j => some (b j)) i hi
      · rw [fr.colloc]
        by_cases hc : (stage2 (stage1 W { s with setup := true }).2).2.colloc = true
        · rw [if_pos hc] at hq
          obtain ⟨q1, q2⟩ := initCollocation_shape hq.2
          exact ⟨q1, by simp [hc], fun _ => q2⟩
        · rw [if_neg hc] at hq
          obtain ⟨q1, q2⟩ := initQuadrature_shape hq
          exact ⟨q1, fun _ => q2, by simp [hc]⟩
  · rw [h2] at hok; exact absurd hok h1

/-- Configure a one-dimensional IGA, set it up, replace the axis by one with 2 elements, change the quadrature. -/
def exStale : List (Op Rat Unit) :=
  [.setDim 1, .axis 0 (exAxisCall 4), .setUp, .axis 0 (exAxisCall 2), .setRuleSize 0 5]

/-- **C67, refuted for a changed axis.**  A history in which every call succeeds and whose last call is `IGASetUp` leaves an
object whose partition is the one of an axis it no longer has: the set-up repeats only its third stage. -/
theorem C67_axis_refuted : ∃ (W : World Rat Unit) (ops : List (Op Rat Unit)),
    allOk W (create W) (ops ++ [.setUp]) = true ∧ ¬ Describes (run W (create W) (ops ++ [.setUp])) ∧
    (run W (create W) (ops ++ [.setUp])).axes.map Axis.nel = [2, 1, 1] ∧
    (run W (create W) (ops ++ [.setUp])).layout.map (fun L => L.axes.map Axis.nel) = some [4] := by
  have h1 : (run (exWorld 1) (create (exWorld 1)) (exStale ++ [.setUp])).axes.map Axis.nel = [2, 1, 1] := by decide +kernel
  have h2 : (run (exWorld 1) (create (exWorld 1)) (exStale ++ [.setUp])).layout.map (fun L => L.axes.map Axis.nel) = some [4] := by
    decide +kernel
  have h3 : (run (exWorld 1) (create (exWorld 1)) (exStale ++ [.setUp])).dim = 1 := by decide +kernel
  refine ⟨exWorld 1, exStale, by decide +kernel, ?_, h1, h2⟩
  rintro ⟨⟨L, e1, -, e3, -⟩, -⟩
  rw [e1] at h2
  simp only [Option.map_some, Option.some.injEq] at h2
  rw [e3, h3, List.map_take, h1] at h2
  exact absurd h2 (by decide)

/-- Two-dimensional IGA on 4 processes in a 4 × 1 grid; after the set-up the quadrature is changed and one process is
requested in the first direction. -/
def exProcs : List (Op Rat Unit) :=
  [.setDim 2, .axis 0 (exAxisCall 4), .axis 1 (exAxisCall 4), .setProcessors 0 4, .setProcessors 1 1, .setUp,
   .setRuleSize 0 5, .setProcessors 0 1]

/-- **C67, refuted for the processor grid.**  `IGASetProcessors` is accepted after a set-up once a rule was changed; the
next `IGASetUp` succeeds and the object reports a processor grid that is not the one its elements are distributed on. -/
theorem C67_processors_refuted : ∃ (W : World Rat Unit) (ops : List (Op Rat Unit)),
    allOk W (create W) (ops ++ [.setUp]) = true ∧ ¬ Describes (run W (create W) (ops ++ [.setUp])) ∧
    (run W (create W) (ops ++ [.setUp])).procs = [1, 1, 1] ∧
    (run W (create W) (ops ++ [.setUp])).layout.map (fun L => L.procs) = some [4, 1] ∧ W.size = 4 := by
  have h1 : (run (exWorld 4) (create (exWorld 4)) (exProcs ++ [.setUp])).procs = [1, 1, 1] := by decide +kernel
  have h2 : (run (exWorld 4) (create (exWorld 4)) (exProcs ++ [.setUp])).layout.map (fun L => L.procs) = some [4, 1] := by
    decide +kernel
  have h3 : (run (exWorld 4) (create (exWorld 4)) (exProcs ++ [.setUp])).dim = 2 := by decide +kernel
  refine ⟨exWorld 4, exProcs, by decide +kernel, ?_, h1, h2, rfl⟩
  rintro ⟨⟨L, e1, -, -, e4⟩, -⟩
  rw [e1] at h2
  simp only [Option.map_some, Option.some.injEq] at h2
  rw [e4, h3, h1] at h2
  exact absurd h2 (by decide)

/-- The first set-up of `exStale` meets the hypotheses of `C67_setup_describes_partial`. -/
example : ∃ s : IGA Rat Unit, Sane s ∧ s.setup = false ∧ s.stage = 0 ∧ (setUp (exWorld 1) s).1 = .ok () := by
  refine ⟨run (exWorld 1) (create (exWorld 1)) (exStale.take 2), ?_, by decide +kernel, by decide +kernel, ?_⟩
  · exact sane_run (exStale.take 2) (allOk_noFail (by decide +kernel))
  · exact isOk_iff.1 (by decide +kernel)

/-! ### C59 -/

/-- The same axis: every field and every knot; the memory beyond the knot array may differ. -/
structure SameAxis (a b : Axis K) : Prop where
  periodic : b.periodic = a.periodic
  p : b.p = a.p
  m : b.m = a.m
  nnp : b.nnp = a.nnp
  nel : b.nel = a.nel
  span : b.span = a.span
  knots : ∀ i : Int, 0 ≤ i → i ≤ a.m → b.U i = a.U i

theorem copyAxis_same (junk : Int → K) (a : Axis K) : SameAxis a (copyAxis junk a) :=
  ⟨rfl, rfl, rfl, rfl, rfl, rfl, fun i h0 h1 => by simp [copyAxis, h0, h1]⟩

/-- An axis whose tables only need its knots. -/
structure AxOK (a : Axis K) : Prop where
  p : 0 ≤ a.p
  m : 2 * a.p + 1 ≤ a.m
  span : ∀ k ∈ a.span, a.p ≤ k ∧ k ≤ a.m - a.p - 1
  nnp : 0 ≤ a.nnp ∧ a.nnp ≤ a.m - a.p

theorem wf_axOK {a : Axis K} (h : WF a) : AxOK a := by
  have hd := h.legal.degree
  have he := h.legal.enough
  refine ⟨by omega, he, ?_, ?_⟩
  · intro k hk
    rw [h.span] at hk
    have := ((computeSpans_spec h.legal.sorted hd (by omega)).1 k).1 hk
    exact ⟨this.1, this.2.1⟩
  · have := nnp_bounds h
    omega

theorem create_axOK (junk : Int → K) : AxOK (Ax.create junk) :=
  ⟨by simp [Ax.create], by simp [Ax.create], by simp [Ax.create], by simp [Ax.create]⟩

/-- The one-dimensional kernels read nothing but the axis: on equal axes they give equal tables for every knot interval of
the domain. -/
def KernLocal (W : World K V) : Prop :=
  ∀ bt a b, SameAxis a b → ∀ k u, a.p ≤ k → k ≤ a.m - a.p - 1 → W.kern bt b k u = W.kern bt a k u

theorem c0Ok_congr {p m : Int} {U U' : Int → K} (h : ∀ i, 0 ≤ i → i ≤ m → U' i = U i) :
    ∀ (f : Nat) (k : Int), c0Ok p m U' f k = c0Ok p m U f k := by
  intro f
  induction f with
  | zero => intro k; rfl
  | succ f ih =>
    intro k
    simp only [c0Ok, nextKnot_congr h, ih]

theorem tabulate_congr {cb cb' : K → V} (h : ∀ u, cb' u = cb u) : ∀ ws us, tabulate cb' ws us = tabulate cb ws us := by
  have : cb' = cb := funext h
  intro ws us; rw [this]

theorem mkElem_congr {W : World K V} (hW : KernLocal W) {bt : BasisType} {a b : Axis K} (h : SameAxis a b) (ha : AxOK a)
    {k : Int} (hk : k ∈ a.span) (nqp : Nat) (X Wt : List K) :
    mkElem (W.kern bt b) b.p b.U nqp W.huge X Wt k = mkElem (W.kern bt a) a.p a.U nqp W.huge X Wt k := by
  have hr := ha.span k hk
  have hp := ha.p
  have e1 : b.U k = a.U k := h.knots k (by omega) (by omega)
  have e2 : b.U (k+1) = a.U (k+1) := h.knots (k+1) (by omega) (by omega)
  have e3 : W.kern bt b k = W.kern bt a k := funext fun u => hW bt a b h k u hr.1 hr.2
  simp only [mkElem, Quad.setRule, e1, e2, e3, h.p]

theorem initQuadrature_congr {W : World K V} (hW : KernLocal W) {bt : BasisType} {a b : Axis K} (h : SameAxis a b)
    (ha : AxOK a) (r : Rule K) :
    initQuadrature (W.kern bt b) W.huge bt b r = initQuadrature (W.kern bt a) W.huge bt a r := by
  have hp := ha.p; have hm := ha.m
  have m1 : ∀ nqp X Wt, b.span.map (mkElem (W.kern bt b) b.p b.U nqp W.huge X Wt) =
      a.span.map (mkElem (W.kern bt a) a.p a.U nqp W.huge X Wt) := by
    intro nqp X Wt
    rw [h.span]
    exact List.map_congr_left fun k hk => mkElem_congr hW h ha hk nqp X Wt
  have m2 : ∀ nqp X Wt X' Wt', b.span.mapIdx (fun i k => if i = 0 ∨ i = b.span.length - 1 then
        mkElem (W.kern bt b) b.p b.U nqp W.huge X Wt k else mkElem (W.kern bt b) b.p b.U nqp W.huge X' Wt' k) =
      a.span.mapIdx (fun i k => if i = 0 ∨ i = a.span.length - 1 then
        mkElem (W.kern bt a) a.p a.U nqp W.huge X Wt k else mkElem (W.kern bt a) a.p a.U nqp W.huge X' Wt' k) := by
    intro nqp X Wt X' Wt'
    rw [h.span]
    apply List.ext_getElem
    · simp
    · intro i h1 h2
      simp only [List.getElem_mapIdx]
      have hk : a.span[i]'(by simpa using h2) ∈ a.span := List.getElem_mem _
      rw [mkElem_congr hW h ha hk, mkElem_congr hW h ha hk]
  have u1 : b.U a.p = a.U a.p := h.knots _ hp (by omega)
  have u2 : b.U (a.m - a.p - 1 + 1) = a.U (a.m - a.p - 1 + 1) := h.knots _ (by omega) (by omega)
  have k1 : W.kern bt b a.p (a.U a.p) = W.kern bt a a.p (a.U a.p) := hW bt a b h _ _ (by omega) (by omega)
  have k2 : W.kern bt b (a.m - a.p - 1) (a.U (a.m - a.p - 1 + 1)) = W.kern bt a (a.m - a.p - 1) (a.U (a.m - a.p - 1 + 1)) :=
    hW bt a b h _ _ (by omega) (by omega)
  unfold initQuadrature
  simp only [m1, m2, h.p, h.m, h.span, c0Ok_congr (m := a.m) h.knots, u1, u2, k1, k2]
  simp only [h.p, h.span] at m1 m2
  simp only [m1, m2]

theorem findLoop_range {U : Int → K} {u : K} : ∀ (f : Nat) (low high : Int), 0 ≤ low → low < high → U low ≤ u → u < U high →
    ∀ k, findLoop u U f low high = some k → low ≤ k ∧ k < high
  | 0, _, _, _, _, _, _, _, h => by simp [findLoop] at h
  | f+1, low, high, h0, h1, h2, h3, k, h => by
    have ht : Int.tdiv (high+low) 2 = (high+low)/2 := Int.tdiv_eq_ediv_of_nonneg (by omega)
    unfold findLoop at h
    dsimp only at h
    rw [ht] at h
    have ha : low ≤ (high+low)/2 := by omega
    have hb : (high+low)/2 < high := by omega
    generalize hsp : (high+low)/2 = sp at *
    split at h
    · split at h
      · rename_i hlt
        have hne : sp ≠ low := by rintro rfl; exact absurd h2 (not_le.2 hlt)
        have := findLoop_range f low sp h0 (by omega) h2 hlt k h
        omega
      · rename_i hge
        have := findLoop_range f sp high (by omega) hb (not_lt.1 hge) h3 k h
        omega
    · cases h; omega

theorem findSpan_range {fuel : Nat} {n p : Int} {u : K} {U : Int → K} (hp : 0 ≤ p) (hn : p ≤ n) {k : Int}
    (h : findSpan fuel n p u U = some k) : p ≤ k ∧ k ≤ n := by
  unfold findSpan at h
  split_ifs at h with h1 h2
  · cases h; omega
  · cases h; omega
  · have := findLoop_range fuel p (n+1) hp (by omega) (le_of_lt (not_le.1 h1)) (not_le.1 h2) k h
    omega

theorem grevSum_congr {U U' : Int → K} {i : Int} : ∀ (j : Nat), (∀ l : Int, i < l → l ≤ i + j → U' l = U l) →
    grevSum i U' j = grevSum i U j
  | 0, _ => rfl
  | j+1, h => by
    simp only [grevSum]
    rw [grevSum_congr j (fun l h1 h2 => h l h1 (by push_cast; omega)), h (i + j + 1) (by omega) (by push_cast; omega)]

theorem collocElems_congr {W : World K V} (hW : KernLocal W) {bt : BasisType} {a b : Axis K} (h : SameAxis a b)
    (ha : AxOK a) (shift : Int) (hs : 0 ≤ shift) (hs' : shift ≤ a.m - a.p - a.nnp) : ∀ l : List Nat, (∀ i ∈ l, (i:Int) < a.nnp) →
    collocElems (W.kern bt b) b shift l = collocElems (W.kern bt a) a shift l := by
  have hp := ha.p; have hm := ha.m
  intro l
  induction l with
  | nil => intro _; rfl
  | cons i l ih =>
    intro hl
    have hi := hl i (by simp)
    have hg : greville ((i:Int) + shift) b.p b.U = greville ((i:Int) + shift) a.p a.U := by
      unfold greville
      rw [h.p]
      split_ifs with hp0
      · rw [grevSum_congr a.p.toNat (fun l h1 h2 => h.knots l (by omega) (by omega))]
      · rw [h.knots 0 (by omega) (by omega), h.knots 1 (by omega) (by omega)]
    simp only [collocElems, hg, h.m]
    simp only [h.p]
    rw [C10_find_span_reads (a.m - a.p - 1) a.p b.U a.U _ _ hp (by omega) (fun j h1 h2 => h.knots j (by omega) (by omega)),
      ih fun j hj => hl j (by simp [hj])]
    cases hf : findSpan (a.m + 1).toNat (a.m - a.p - 1) a.p (greville ((i:Int) + shift) a.p a.U) a.U with
    | none => rfl
    | some k =>
      have hk := findSpan_range hp (by omega) hf
      show (collocElems (W.kern bt a) a shift l).bind _ = (collocElems (W.kern bt a) a shift l).bind _
      rw [hW bt a b h k _ hk.1 hk.2]

theorem initCollocation_congr {W : World K V} (hW : KernLocal W) {bt : BasisType} {a b : Axis K} (h : SameAxis a b)
    (ha : AxOK a) : initCollocation (W.kern bt b) bt b = initCollocation (W.kern bt a) bt a := by
  have hp := ha.p; have hm := ha.m; have hn := ha.nnp
  have ht : Int.tdiv (a.m - a.p - 1 + 1 - a.nnp) 2 = (a.m - a.p - 1 + 1 - a.nnp) / 2 :=
    Int.tdiv_eq_ediv_of_nonneg (by omega)
  have u1 : b.U a.p = a.U a.p := h.knots _ hp (by omega)
  have u2 : b.U (a.m - a.p - 1 + 1) = a.U (a.m - a.p - 1 + 1) := h.knots _ (by omega) (by omega)
  have k1 : W.kern bt b a.p (a.U a.p) = W.kern bt a a.p (a.U a.p) := hW bt a b h _ _ (by omega) (by omega)
  have k2 : W.kern bt b (a.m - a.p - 1) (a.U (a.m - a.p - 1 + 1)) = W.kern bt a (a.m - a.p - 1) (a.U (a.m - a.p - 1 + 1)) :=
    hW bt a b h _ _ (by omega) (by omega)
  unfold initCollocation
  simp only [h.p, h.m, h.nnp, u1, u2, k1, k2, ht]
  rw [collocElems_congr hW h ha _ (by omega) (by omega) _ (by intro i hi; have := List.mem_range.1 hi; omega)]

/-- The geometry arrays are present exactly when the flags say so. -/
structure Whole (g : Geo K) : Prop where
  weights : g.rational = true ↔ g.W.isSome = true
  points : g.nsd ≠ 0 ↔ g.X.isSome = true
  props : g.npd ≠ 0 ↔ g.A.isSome = true

theorem okb {α β : Type} (a : α) (f : α → Res β) : (Res.ok a).bind f = f a := rfl

theorem copyN_all {n : Nat} {l : List K} (h : l.length = n) : copyN n l = .ok l := by
  unfold copyN
  rw [if_pos (le_of_eq h.symm), ← h, List.take_length]

theorem cloneGeo_whole {L : Layout K} {g : Geo K} (hf : GeoFits L g) (hw : Whole g) : cloneGeo L g = .ok g := by
  obtain ⟨rat, w, nsd, x, npd, a⟩ := g
  obtain ⟨f1, f2, f3⟩ := hf
  obtain ⟨w1, w2, w3⟩ := hw
  dsimp only at *
  unfold cloneGeo
  dsimp only
  cases rat <;> cases w <;> simp at w1 <;> cases x <;> simp at w2 <;> cases a <;> simp at w3 <;>
    simp only [okb, copyN_all, f1, f2, f3, w2, w3, ne_eq, not_false_eq_true, if_true, Geo.none]

/-- The object on which `IGAClone` runs the third stage. -/
def cloneStart (W : World K V) (s : IGA K V) (L : Layout K) (g : Geo K) (dof : Int) : IGA K V :=
  { create W with
    colloc := s.colloc, dim := s.dim, axes := s.axes.map (copyAxis W.junk),
    rules := s.rules.map fun r => Rule.copy r Rule.create, btypes := s.btypes, procs := s.procs,
    layout := some L, stage := 2, geo := g, dof := if dof > 0 then dof else s.dof, order := s.order,
    grid := some (if dof > 0 then dof else s.dof, L), setup := true }

theorem clone_eq {W : World K V} {s : IGA K V} {L : Layout K} {g : Geo K} {dof : Int} (h : Sane s) (hs : s.setup = true)
    (hL : s.layout = some L) (hg : cloneGeo L s.geo = .ok g) :
    clone W s dof = match stage3 W (cloneStart W s L g dof) with
      | (.ok _, c) => .ok c
      | (.err e, _) => .err e
      | (.ub, _) => .ub := by
  have h3 := (h.done hs).1
  have hd : ¬ s.dim < 1 := by have := h.s0 (by omega); omega
  have hdof : ¬ (if dof > 0 then dof else s.dof) < 1 := by
    have := (h.s2 (by omega)).1
    split_ifs <;> omega
  unfold clone
  simp only [hs, not_true, if_false, hL, hg, okb]
  simp only [stage2, andThen, hdof, if_false, setUp, create, hd, stage1, cloneStart, Option.map_some]
  simp
  rw [if_neg hd]
  rfl

/-- **C59, configuration.**  Whenever `IGAClone` of a set-up object succeeds, the clone is completely set up with the same
dimension, Galerkin/collocation choice, axes, basis types, processor grid, partition and control points, weights and
properties; the number of fields is the requested one, or the original's when none is requested; boundary tables are not
inherited. -/
theorem C59_clone_preserves (W : World K V) (s c : IGA K V) (dof : Int) (h : Sane s) (hs : s.setup = true)
    (ho : 0 ≤ s.order) (hg : Whole s.geo) (hc : clone W s dof = .ok c) :
    c.dim = s.dim ∧ c.colloc = s.colloc ∧ List.Forall₂ SameAxis s.axes c.axes ∧ c.btypes = s.btypes ∧ c.procs = s.procs ∧
    c.layout = s.layout ∧ c.order = s.order ∧ c.geo = s.geo ∧ (dof > 0 → c.dof = dof) ∧ (¬ dof > 0 → c.dof = s.dof) ∧
    c.fixtable = none ∧ c.setup = true ∧ Complete c := by
  have h3 := (h.done hs).1
  obtain ⟨L, hL⟩ := Option.isSome_iff_exists.1 (h.s1 (by omega))
  rw [clone_eq h hs hL (cloneGeo_whole (h.geo L hL) hg)] at hc
  have hok : (stage3 W (cloneStart W s L s.geo dof)).1 = .ok () ∧ (stage3 W (cloneStart W s L s.geo dof)).2 = c := by
    generalize stage3 W (cloneStart W s L s.geo dof) = y at hc
    obtain ⟨r, c'⟩ := y
    cases r <;> simp_all
  obtain ⟨r', b, e, -⟩ := stage3_ok hok.1
  rw [hok.2] at e
  have hdof := (h.s2 (by omega)).1
  subst e
  refine ⟨rfl, rfl, ?_, rfl, rfl, hL.symm, ?_, rfl, ?_, ?_, rfl, rfl, ⟨rfl, ⟨L, rfl, rfl⟩, ?_, ?_, rfl⟩⟩
  · simp only [cloneStart, List.forall₂_map_right_iff]
    exact List.forall₂_same.2 fun a _ => copyAxis_same _ a
  · simp only [effOrder, cloneStart]
    exact if_neg (by omega)
  · intro hd; simp [cloneStart, hd]
  · intro hd; simp [cloneStart, hd]
  · simp only [cloneStart]; split_ifs <;> omega
  · simp only [cloneStart, create]
    constructor
    · simp
    · rw [set3 (by simp)]; simp

/-- Rule and table of one direction before and after. -/
def DirOk (W : World K V) (colloc : Bool) (dim : Int) (i : Nat) (ax : Axis K) (bt : BasisType) (r r' : Rule K) (b : Basis K V) : Prop :=
  if colloc then r' = Rule.reset r ∧ initCollocation (W.kern bt ax) bt ax = .ok b
  else initQuadrature (W.kern bt ax) W.huge bt ax
    (if dim ≤ i then (Rule.setType (Rule.reset r) .legendre).2 else r) = (.ok (), r', some b)

theorem initDir_of {W : World K V} {i : Nat} {s : IGA K V} {ax : Axis K} {r r' : Rule K} {bt : BasisType} {b : Basis K V}
    (h1 : s.axes[i]? = some ax) (h2 : s.rules[i]? = some r) (h3 : s.btypes[i]? = some bt)
    (h : DirOk W s.colloc s.dim i ax bt r r' b) :
    initDir W i s = (.ok (), { s with rules := s.rules.set i r', bases := s.bases.set i (some b) }) := by
  unfold DirOk at h
  unfold initDir
  rw [h1, h2, h3]
  dsimp only
  by_cases hc : s.colloc = true
  · rw [if_pos hc] at h ⊢
    obtain ⟨rfl, h⟩ := h
    rw [h]
  · rw [if_neg hc] at h ⊢
    rw [h]

theorem stage3_of {W : World K V} {s : IGA K V} (ho : 0 ≤ s.order) {r' : Fin 3 → Rule K} {b : Fin 3 → Basis K V}
    (h : ∀ i : Fin 3, ∃ ax r bt, s.axes[i.val]? = some ax ∧ s.rules[i.val]? = some r ∧ s.btypes[i.val]? = some bt ∧
      DirOk W s.colloc s.dim i.val ax bt r (r' i) (b i)) :
    stage3 W s = (.ok (), { s with
        stage := 3, rules := ((s.rules.set 0 (r' 0)).set 1 (r' 1)).set 2 (r' 2),
        bases := ((s.bases.set 0 (some (b 0))).set 1 (some (b 1))).set 2 (some (b 2)), iter := true }) := by
  obtain ⟨a0, r0, t0, p0, q0, w0, h0⟩ := h 0
  obtain ⟨a1, r1, t1, p1, q1, w1, h1⟩ := h 1
  obtain ⟨a2, r2, t2, p2, q2, w2, h2⟩ := h 2
  unfold stage3
  have e0 : defaultOrder { s with stage := 3 } = (.ok (), { s with stage := 3 }) := by
    unfold defaultOrder
    rw [if_neg (by simp only; omega)]
  rw [e0]
  simp only [andThen]
  rw [initDir_of (i := 0) (s := { s with stage := 3 }) p0 q0 w0 h0]
  simp only []
  rw [initDir_of (i := 1) (s := { s with stage := 3, rules := s.rules.set 0 (r' 0), bases := s.bases.set 0 (some (b 0)) }) p1
    (by simpa using q1) w1 h1]
  simp only []
  rw [initDir_of (i := 2) (s := { s with stage := 3, rules := (s.rules.set 0 (r' 0)).set 1 (r' 1), bases := (s.bases.set 0 (some (b 0))).set 1 (some (b 1)) }) p2
    (by simpa using q2) w2 h2]

theorem copyRule_of {r : Rule K} (h : 1 ≤ r.nqp) : Rule.copy r Rule.create = r := by
  unfold Rule.copy
  rw [if_pos (by omega), if_pos (by omega)]

theorem copyRule_reset (r : Rule K) : Rule.copy (Rule.reset r) Rule.create = Rule.reset r := by
  simp [Rule.copy, Rule.reset]

theorem setType_reset (r : Rule K) : (Rule.setType (Rule.reset r) .legendre).2 = Rule.create := by
  unfold Rule.setType
  split_ifs with h1
  · simp_all [Rule.reset, Rule.create]
  · simp [Rule.reset, Rule.create]

/-- Cloning a direction: the copied axis and rule give the tables of the original. -/
theorem dirOk_clone {W : World K V} (hW : KernLocal W) {colloc : Bool} {dim : Int} {i : Nat} {ax : Axis K} {bt : BasisType}
    {r r' : Rule K} {b : Basis K V} (ha : AxOK ax) (hr : colloc = true ∨ r.type ≠ .reduced)
    (h : DirOk W colloc dim i ax bt r r' b) :
    DirOk W colloc dim i (copyAxis W.junk ax) bt (Rule.copy r' Rule.create) r' b := by
  unfold DirOk at h ⊢
  by_cases hc : colloc = true
  · rw [if_pos hc] at h ⊢
    obtain ⟨rfl, h⟩ := h
    rw [copyRule_reset]
    exact ⟨by simp [Rule.reset], by rw [initCollocation_congr hW (copyAxis_same _ ax) ha]; exact h⟩
  · rw [if_neg hc] at h ⊢
    rw [initQuadrature_congr hW (copyAxis_same _ ax) ha]
    by_cases hd : dim ≤ i
    · rw [if_pos hd] at h ⊢
      rw [setType_reset] at h ⊢
      exact h
    · rw [if_neg hd] at h ⊢
      have hr : r.type ≠ .reduced := by
        rcases hr with hr | hr
        · exact absurd hr hc
        · exact hr
      obtain ⟨e1, e2, e3, e4, e5⟩ := C18_repeated_setup_partial _ _ _ _ _ _ _ hr h
      rw [copyRule_of e5]
      exact e1

/-- **C59, tables (partial).**  An IGA whose axes were configured with the axis functions and that is set up with quadrature
rules other than the reduced one (or with collocation), optionally given a geometry: `IGAClone` succeeds, and the clone
has the very same quadrature rules and basis tables in every direction.  Missing: the reduced rule, for which the clone's
tables differ (`C59_reduced_refuted`). -/
theorem C59_tables_partial (W : World K V) (hW : KernLocal W) (s0 : IGA K V) (h : Sane s0) (hs : s0.setup = false)
    (h0 : s0.stage = 0) (hreach : ∀ ax ∈ s0.axes.take s0.dim.toNat, Reached ax)
    (hred : s0.colloc = true ∨ ∀ r ∈ s0.rules, r.type ≠ .reduced) (hok : (setUp W s0).1 = .ok ())
    (g : Geo K) (fx : Option (List K)) (hg : Whole g) (hgok : (setGeo (setUp W s0).2 g fx).1 = .ok ()) (dof : Int) :
    ∃ c, clone W (setGeo (setUp W s0).2 g fx).2 dof = .ok c ∧ c.rules = (setUp W s0).2.rules ∧
      c.bases = (setUp W s0).2.bases := by
  have hd : ¬ s0.dim < 1 := by
    intro hd
    simp [setUp, hs, hd] at hok
  rcases setUp_cases W s0 hs hd with ⟨h1, h2⟩ | ⟨h1, h2⟩
  swap
  · rw [h2] at hok; exact absurd hok h1
  obtain ⟨hsane, hcomp⟩ := sane_setUp h hok
  have hset := setUp_setup W s0 hs hd
  have hsane' := sane_step (W := W) hsane (.setGeo g fx) (by simp)
  have esg : (setGeo (setUp W s0).2 g fx).2 = { (setUp W s0).2 with geo := g, fixtable := fx } := by
    unfold setGeo at hgok ⊢
    cases hl : (setUp W s0).2.layout with
    | none => rw [hl] at hgok; simp at hgok
    | some L =>
      rw [hl] at hgok
      dsimp only at hgok ⊢
      split_ifs at hgok ⊢
      simp only [← hl]
  simp only [step] at hsane'
  rw [esg] at hsane' ⊢
  obtain ⟨L0, hL0, e1⟩ := stage1_ok (s := { s0 with setup := true }) h0 h1
  obtain ⟨f1, f2, f3, f4, f5, f6, f7, f8, f9⟩ := stage1_frame W { s0 with setup := true }
  obtain ⟨k0, k1, k2, k3, k4, k5, k6, k7, k8, k9, k10, k11, k12, k13, k14⟩ := stage2_frame (stage1 W { s0 with setup := true }).2
  have fr := stage3_frame W (stage2 (stage1 W { s0 with setup := true }).2).2
  rw [h2] at hok hsane hcomp hset hsane' ⊢
  obtain ⟨r', b, e, ht⟩ := stage3_ok hok
  generalize hS : stage2 (stage1 W { s0 with setup := true }).2 = S at *
  have hax : ∀ ax ∈ S.2.axes, AxOK ax := by
    intro ax hax
    rw [k9, e1] at hax
    rcases List.mem_append.1 hax with hax | hax
    · refine wf_axOK ?_
      unfold Lay.stage1 at hL0
      obtain ⟨as, g1, hL0⟩ := Res.bind_eq_ok.1 hL0
      obtain ⟨pr, g2, hL0⟩ := Res.bind_eq_ok.1 hL0
      obtain ⟨ws, g3, hL0⟩ := Res.bind_eq_ok.1 hL0
      obtain ⟨ds, g4, hL0⟩ := Res.bind_eq_ok.1 hL0
      cases hL0
      exact setUpAxes_wf hreach g1 ax hax
    · rw [List.eq_of_mem_replicate hax]; exact create_axOK _
  have hord : 0 ≤ (stage3 W S.2).2.order := by
    rw [e]
    simp only [effOrder, clip]
    split_ifs <;> omega
  have hrl : S.2.rules.length = 3 := by rw [k6, f6]; exact h.lens.2.1
  have hbl : S.2.bases.length = 3 := by rw [k8, f8]; exact h.lens.2.2.2.1
  obtain ⟨L, hL⟩ := Option.isSome_iff_exists.1 (hsane'.s1 (by rw [(hsane'.done hset).1]; omega))
  have hcg : cloneGeo L g = .ok g := cloneGeo_whole (hsane'.geo L hL) hg
  have key := stage3_of (W := W) (s := cloneStart W { (stage3 W S.2).2 with geo := g, fixtable := fx } L g dof) hord
    (r' := r') (b := b) (fun i => by
      obtain ⟨ax, r, bt, ha, hr, hb, hq⟩ := ht i
      refine ⟨copyAxis W.junk ax, Rule.copy (r' i) Rule.create, bt, ?_, ?_, ?_, ?_⟩
      · simp only [cloneStart, List.getElem?_map]
        rw [fr.axes, ha]; rfl
      · simp only [cloneStart, List.getElem?_map]
        rw [e]
        rw [get_set3 hrl r' i.val i.isLt]; rfl
      · simp only [cloneStart]
        rw [fr.btypes]; exact hb
      · simp only [cloneStart]
        rw [fr.colloc, fr.dim]
        refine dirOk_clone hW (hax ax (List.mem_of_getElem? ha)) ?_ hq
        rcases hred with hred | hred
        · left; rw [k5, f5]; exact hred
        · right
          refine hred r ?_
          have := List.mem_of_getElem? hr
          rw [k6, f6] at this
          exact this)
  rw [clone_eq hsane' hset hL hcg, key]
  refine ⟨_, rfl, ?_, ?_⟩
  · simp only [cloneStart]
    rw [e]
    simp only
    rw [set3 hrl, set3 (by simp)]
  · simp only [cloneStart, create]
    rw [e]
    simp only
    rw [set3 hbl, set3 (by simp)]

/-- The number of quadrature points per direction. -/
def points (s : IGA K V) : List (Option Int) := s.bases.map fun b => b.map Basis.nqp

/-- A one-dimensional IGA of degree 2 with 4 elements and the given rule type. -/
def exRule (t : RuleType) : List (Op Rat Unit) := [.setDim 1, .axis 0 (exAxisCall 4), .setRuleType 0 t, .setUp]

/-- **C59, refuted for the reduced rule.**  The clone of an object set up with the reduced rule has fewer quadrature points
than the original. -/
theorem C59_reduced_refuted : ∃ (W : World Rat Unit) (ops : List (Op Rat Unit)), KernLocal W ∧
    allOk W (create W) ops = true ∧ (run W (create W) ops).setup = true ∧
    points (run W (create W) ops) = [some 3, some 1, some 1] ∧
    ∃ c, clone W (run W (create W) ops) 1 = .ok c ∧ points c = [some 2, some 1, some 1] := by
  refine ⟨exWorld 1, exRule .reduced, fun _ _ _ _ _ _ _ _ => rfl, by decide +kernel, by decide +kernel, by decide +kernel, ?_⟩
  generalize hc : clone (exWorld 1) (run (exWorld 1) (create (exWorld 1)) (exRule .reduced)) 1 = y
  have h1 : (match y with | .ok c => some (points c) | _ => none) = some [some 2, some 1, some 1] := by
    rw [← hc]; decide +kernel
  cases y with
  | ok c => exact ⟨c, rfl, by simpa using h1⟩
  | err e => cases h1
  | ub => cases h1

theorem exAxis_reached : Reached (exAxisCall 4 (Ax.create fun _ => 0)).2 :=
  Reached.step _ (.initUniform (fun _ => 0) 4 0 1 (-1))
    (Reached.step _ (.setDegree 2) (Reached.create fun _ => 0) (isOk_iff.1 (by decide +kernel))) (isOk_iff.1 (by decide +kernel))

/-- The hypotheses of `C59_tables_partial` and `C59_clone_preserves` are met by `exRule .lobatto`. -/
example : (∀ ax ∈ (run (exWorld 1) (create (exWorld 1)) ((exRule .lobatto).take 3)).axes.take 1, Reached ax) ∧
    Sane (run (exWorld 1) (create (exWorld 1)) ((exRule .lobatto).take 3)) ∧
    (setUp (exWorld 1) (run (exWorld 1) (create (exWorld 1)) ((exRule .lobatto).take 3))).1 = .ok () ∧
    (∀ r ∈ (run (exWorld 1) (create (exWorld 1)) ((exRule .lobatto).take 3)).rules, r.type ≠ .reduced) ∧
    0 ≤ (run (exWorld 1) (create (exWorld 1)) (exRule .lobatto)).order ∧
    Whole (run (exWorld 1) (create (exWorld 1)) (exRule .lobatto)).geo := by
  refine ⟨?_, sane_run _ (allOk_noFail (by decide +kernel)), isOk_iff.1 (by decide +kernel), by decide +kernel, by decide +kernel, ?_⟩
  · intro ax hax
    have : (run (exWorld 1) (create (exWorld 1)) ((exRule .lobatto).take 3)).axes.take 1 = [(exAxisCall 4 (Ax.create fun _ => 0)).2] := rfl
    rw [this] at hax
    simp only [List.mem_singleton] at hax
    rw [hax]; exact exAxis_reached
  · constructor <;> decide +kernel

end PetIGA.SetUp
