import Verif.Lemmas.Assemble
set_option linter.unusedSectionVars false
/-
C48, C51: functionals, vectors and matrices computed by the element loops do not depend on the decomposition.
-/
namespace PetIGA.Asm
open PetIGA.Ax PetIGA.Lay PetIGA.Elem PetIGA.Grid PetIGA.Spec PetIGA.Part

variable {K : Type} [Field K] [LinearOrder K] [IsStrictOrderedRing K]

/-- The node of local basis function `t` (a multi-index) of element `e`. -/
def nodeOf (colloc : Bool) (axs : List (Axis K)) (e t : List Int) : List Int :=
  modAll (axs.map Axis.nnp) (plus (firstNodes colloc axs e) t)

/-- The values of the nodal field `u` on the element, all components of one basis function after the other. -/
def valuesOf {V : Type} (colloc : Bool) (axs : List (Axis K)) (dof : Nat) (u : List Int → Nat → V) (e : List Int) : List V :=
  (indices (nens axs)).flatMap fun t => (List.range dof).map fun (c : Nat) => u (nodeOf colloc axs e t) c

/-- The global vector `gvec` of the decomposition `Ls` stores the nodal field `u` (in the numbering of C26). -/
def Represents {V : Type} (axs : List (Axis K)) (Ls : List (Layout K)) (dof : Nat) (gvec : Int → V) (u : List Int → Nat → V) : Prop :=
  ∀ x (c : Nat), InBox (axs.map Axis.nnp) x → c < dof →
    gvec ((dof:Int) * appToPetsc (world (appWorld Ls)) (flat (axs.map Axis.nnp) x) + c) = u x c

/-- The same for matrices: the matrix `A` has the entry `a z c w d` in the row of component `c` of node `z` and the
column of component `d` of node `w`. -/
def RepresentsMat {V : Type} (axs : List (Axis K)) (Ls : List (Layout K)) (dof : Nat) (A : Int × Int → V)
    (a : List Int → Nat → List Int → Nat → V) : Prop :=
  ∀ z (c : Nat) w (d : Nat), InBox (axs.map Axis.nnp) z → InBox (axs.map Axis.nnp) w → c < dof → d < dof →
    A ((dof:Int) * appToPetsc (world (appWorld Ls)) (flat (axs.map Axis.nnp) z) + c,
       (dof:Int) * appToPetsc (world (appWorld Ls)) (flat (axs.map Axis.nnp) w) + d) = a z c w d

theorem sum_nodup {α V : Type} [AddCommMonoid V] {l : List α} (hn : l.Nodup) {f : α → V} {a : α} (ha : a ∈ l)
    (h : ∀ b ∈ l, b ≠ a → f b = 0) : (l.map f).sum = f a := by
  induction l with
  | nil => cases ha
  | cons x l ih =>
    rw [List.map_cons, List.sum_cons]
    rw [List.nodup_cons] at hn
    rcases List.mem_cons.1 ha with rfl | ha
    · rw [sum_zero l f fun b hb => h b (by simp [hb]) (by rintro rfl; exact hn.1 hb), add_zero]
    · rw [h x (by simp) (by rintro rfl; exact hn.1 ha), zero_add, ih hn.2 ha fun b hb => h b (by simp [hb])]

section
variable {g2 : Guess2} {g3 : Guess3} {colloc : Bool} {size : Int} {procs : List Int} {axes axs : List (Axis K)}
  {Ls : List (Layout K)}

theorem Setup.grid (S : Setup g2 g3 colloc size procs axes axs Ls) :
    Decomposed (axs.map Axis.nnp) (world (appWorld Ls)) ∧ (∀ n ∈ axs.map Axis.nnp, 1 ≤ n) := by
  have hlen := S.ranks.1
  have hne := S.nonempty
  obtain ⟨L, hL⟩ : ∃ L, Ls[0]? = some L := ⟨Ls[0]'(by omega), by simp⟩
  obtain ⟨h1, h2, -, -⟩ := S.get hL
  have := C26_after_setup_partial g2 g3 colloc size procs axes L _ S.reached h1 (by rw [h2]; exact S.cond) Ls S.ranks
  rw [h2] at this
  exact ⟨this.1, this.2.2.2.1⟩

theorem lookup_ok (S : Setup g2 g3 colloc size procs axes axs Ls) {r : Nat} {L : Layout K} (h : Ls[r]? = some L) {y : List Int}
    (hy : InBlock (L.dir.map Dir.nodeGstart) (L.dir.map Dir.nodeGwidth) y) :
    lookup (lgmap (world (appWorld Ls)) (L.dir.map gdir)) (flat (L.dir.map Dir.nodeGwidth) (rel (L.dir.map Dir.nodeGstart) y)) =
      .ok (appToPetsc (world (appWorld Ls)) (flat (axs.map Axis.nnp) (modAll (axs.map Axis.nnp) y))) := by
  obtain ⟨-, -, hd, hg⟩ := S.get h
  obtain ⟨D, -⟩ := S.grid
  have e1 : ghoStart (world (appWorld Ls)) r = L.dir.map Dir.nodeGstart := by
    rw [(own_get hg).2.2.1, List.map_map]; rfl
  have e2 : ghoWidth (world (appWorld Ls)) r = L.dir.map Dir.nodeGwidth := by
    rw [(own_get hg).2.2.2, List.map_map]; rfl
  have := C26_local_to_global _ _ D r _ hg y (by rw [e1, e2]; exact hy)
  rw [e1, e2] at this
  unfold lookup
  rw [if_neg (by omega), this.2, (wrapAll_modAll colloc hd hy).1]

theorem lookupAll_ok (S : Setup g2 g3 colloc size procs axes axs Ls) {r : Nat} {L : Layout K} (h : Ls[r]? = some L)
    (l : List (List Int)) (hl : ∀ y ∈ l, InBlock (L.dir.map Dir.nodeGstart) (L.dir.map Dir.nodeGwidth) y) :
    lookupAll (lgmap (world (appWorld Ls)) (L.dir.map gdir))
      (l.map fun y => flat (L.dir.map Dir.nodeGwidth) (rel (L.dir.map Dir.nodeGstart) y)) =
      .ok (l.map fun y => appToPetsc (world (appWorld Ls)) (flat (axs.map Axis.nnp) (modAll (axs.map Axis.nnp) y))) := by
  induction l with
  | nil => rfl
  | cons y l ih =>
    simp only [List.map_cons, lookupAll]
    rw [lookup_ok S h (hl y (by simp)), ih fun z hz => hl z (by simp [hz])]
    rfl

theorem local_ok {V : Type} (S : Setup g2 g3 colloc size procs axes axs Ls) {r : Nat} {L : Layout K} (h : Ls[r]? = some L)
    {dof : Nat} {gvec : Int → V} {u : List Int → Nat → V} (hu : Represents axs Ls dof gvec u) (junk : Nat × Int → V)
    {y : List Int} (hy : InBlock (L.dir.map Dir.nodeGstart) (L.dir.map Dir.nodeGwidth) y) {c : Nat} (hc : c < dof) :
    globalToLocal (world (appWorld Ls)) dof gvec junk
      (r, flat (L.dir.map Dir.nodeGwidth) (rel (L.dir.map Dir.nodeGstart) y) * dof + c) = u (modAll (axs.map Axis.nnp) y) c := by
  obtain ⟨-, -, hd, hg⟩ := S.get h
  obtain ⟨D, -⟩ := S.grid
  have e1 : ghoStart (world (appWorld Ls)) r = L.dir.map Dir.nodeGstart := by
    rw [(own_get hg).2.2.1, List.map_map]; rfl
  have e2 : ghoWidth (world (appWorld Ls)) r = L.dir.map Dir.nodeGwidth := by
    rw [(own_get hg).2.2.2, List.map_map]; rfl
  have := (C27_global_to_local _ _ D dof gvec junk).1 r y c (rank_lt hg) (by rw [e1, e2]; exact hy) hc
  rw [e1, e2] at this
  rw [mul_comm, this]
  obtain ⟨a, b⟩ := wrapAll_modAll colloc hd hy
  rw [a]
  exact hu _ c b hc

/-- The nodes of the rows of an element, before wrapping. -/
def rowNodes (colloc : Bool) (axs : List (Axis K)) (e : List Int) : List (List Int) :=
  if colloc then [e] else (indices (nens axs)).map (plus (firstNodes colloc axs e))

/-- What the model computes on an owned element before assembly. -/
theorem elem_ok {V : Type} (S : Setup g2 g3 colloc size procs axes axs Ls) {r : Nat} {L : Layout K} (h : Ls[r]? = some L)
    {dof : Nat} {gvec : Int → V} {u : List Int → Nat → V} (hu : Represents axs Ls dof gvec u) (junk : Nat × Int → V)
    {x : List Int} (hx : InBlock (L.dir.map Dir.elemStart) (L.dir.map Dir.elemWidth) x) :
    ∃ cds map row, cdirs colloc L.axes L.dir x = .ok cds ∧ mapping cds = .ok map ∧ rows colloc cds = .ok row ∧
      getValues dof map (fun k => globalToLocal (world (appWorld Ls)) dof gvec junk (r, k)) = valuesOf colloc axs dof u x ∧
      map = ((indices (nens axs)).map (plus (firstNodes colloc axs x))).map
        (fun y => flat (L.dir.map Dir.nodeGwidth) (rel (L.dir.map Dir.nodeGstart) y)) ∧
      row = (rowNodes colloc axs x).map
        (fun y => flat (L.dir.map Dir.nodeGwidth) (rel (L.dir.map Dir.nodeGstart) y)) ∧
      (∀ y ∈ (indices (nens axs)).map (plus (firstNodes colloc axs x)),
        InBlock (L.dir.map Dir.nodeGstart) (L.dir.map Dir.nodeGwidth) y) ∧
      ∀ y ∈ rowNodes colloc axs x, InBlock (L.dir.map Dir.nodeGstart) (L.dir.map Dir.nodeGwidth) y := by
  obtain ⟨h1, h2, hd, hg⟩ := S.get h
  obtain ⟨cds, e, e1, e2, e3, e4, e5, e6, e7, e8⟩ := cdirs_ok colloc hd hx
  have hl : 1 ≤ cds.length ∧ cds.length ≤ 3 := by
    rw [e6, setUpAxes_length S.set]; exact S.dim
  have hm := mapping_eq cds hl.1 hl.2
  have hb : box (cds.map fun d => (d.offset, (d.nen:Int))) = (indices (nens axs)).map (plus (firstNodes colloc axs x)) := by
    rw [box_plus, List.map_map, List.map_map]
    rw [show (cds.map (Prod.snd ∘ fun d : CDir => (d.offset, (d.nen:Int)))) = nens axs from e2]
    rw [show (cds.map (Prod.fst ∘ fun d : CDir => (d.offset, (d.nen:Int)))) = firstNodes colloc axs x from e1]
  rw [hb, e3, e4] at hm
  have hin : ∀ y ∈ (indices (nens axs)).map (plus (firstNodes colloc axs x)),
      InBlock (L.dir.map Dir.nodeGstart) (L.dir.map Dir.nodeGwidth) y := by
    intro y hy
    rw [List.mem_map] at hy
    obtain ⟨t, ht, rfl⟩ := hy
    exact e7 t ((mem_indices _ _).1 ht)
  have hval : getValues dof (((indices (nens axs)).map (plus (firstNodes colloc axs x))).map
      (fun y => flat (L.dir.map Dir.nodeGwidth) (rel (L.dir.map Dir.nodeGstart) y)))
      (fun k => globalToLocal (world (appWorld Ls)) dof gvec junk (r, k)) = valuesOf colloc axs dof u x := by
    unfold getValues valuesOf
    rw [List.flatMap_map, List.flatMap_map, List.flatMap_def, List.flatMap_def]
    congr 1
    apply List.map_congr_left
    intro t ht
    apply List.map_congr_left
    intro c hc
    exact local_ok S h hu junk (hin _ (List.mem_map.2 ⟨t, ht, rfl⟩)) (List.mem_range.1 hc)
  cases colloc with
  | false =>
    refine ⟨cds, _, _, by rw [h2]; exact e, hm, hm, hval, rfl, ?_, hin, ?_⟩
    · simp [rowNodes]
    · simpa [rowNodes] using hin
  | true =>
    refine ⟨cds, _, _, by rw [h2]; exact e, hm, rows_col_eq cds hl.1 hl.2, hval, rfl, ?_, hin, ?_⟩
    · simp [rowNodes, e3, e4, e5]
    · simpa [rowNodes] using e8 rfl

theorem block_inBox (hd : List.Forall₂ (DirOK' colloc) axs ds) {x : List Int}
    (hx : InBlock (ds.map Dir.elemStart) (ds.map Dir.elemWidth) x) : InBox (axs.map (gridSize colloc)) x := by
  induction hd generalizing x with
  | nil => cases hx; exact .nil
  | cons h1 h2 ih =>
    simp only [List.map_cons] at hx ⊢
    cases hx with
    | cons b1 b2 => exact .cons (by have := h1.inside; omega) (ih b2)

/-- Contributions of one element to the vector. -/
def contribVec {V : Type} (colloc : Bool) (axs : List (Axis K)) (G : List Int → Int) (dof : Nat) (F : Nat → V) (e : List Int) :
    List (Int × V) :=
  (rowNodes colloc axs e).zipIdx.flatMap fun ya => (List.range dof).map fun (c : Nat) =>
    ((dof:Int) * G (modAll (axs.map Axis.nnp) ya.1) + c, F (ya.2 * dof + c))

/-- Number of rows (nodes) of an element. -/
def neqs (colloc : Bool) (axs : List (Axis K)) : Nat := if colloc then 1 else (indices (nens axs)).length

theorem rowNodes_length (colloc : Bool) (axs : List (Axis K)) (e : List Int) : (rowNodes colloc axs e).length = neqs colloc axs := by
  unfold rowNodes neqs; split <;> simp

/-- On every process, evaluating the form on element `e` with the values of the field `u` succeeds, and the `m` entries of
the result are those of `f e`. -/
def Evaluates {W V : Type} (colloc : Bool) (axs : List (Axis K)) (dof m : Nat) (u : List Int → Nat → W)
    (form : Nat → List Int → List W → Res (Nat → V)) (f : List Int → Nat → V) : Prop :=
  ∀ (r : Nat) (e : List Int), InBox (axs.map (gridSize colloc)) e → ∃ F, form r e (valuesOf colloc axs dof u e) = .ok F ∧
    ∀ i : Nat, i < m → F i = f e i

theorem contribVec_congr {V : Type} (colloc : Bool) (axs : List (Axis K)) (G : List Int → Int) (dof : Nat) {F F' : Nat → V}
    (e : List Int) (h : ∀ i : Nat, i < neqs colloc axs * dof → F i = F' i) :
    contribVec colloc axs G dof F e = contribVec colloc axs G dof F' e := by
  unfold contribVec
  rw [List.flatMap_def, List.flatMap_def]
  congr 1
  apply List.map_congr_left
  rintro ⟨y, a⟩ hy
  have ha : a < neqs colloc axs := by
    rw [List.mem_zipIdx_iff_getElem?] at hy
    rw [← rowNodes_length colloc axs e]
    exact (List.getElem?_eq_some_iff.1 hy).1
  apply List.map_congr_left
  intro c hc
  rw [List.mem_range] at hc
  dsimp only
  rw [h]
  calc a * dof + c < a * dof + dof := by omega
    _ = (a + 1) * dof := by ring
    _ ≤ _ := Nat.mul_le_mul_right _ ha

theorem elemVec_ok {W V : Type} (S : Setup g2 g3 colloc size procs axes axs Ls) {r : Nat} {L : Layout K} (h : Ls[r]? = some L)
    {dof : Nat} {gvec : Int → W} {u : List Int → Nat → W} (hu : Represents axs Ls dof gvec u) (junk : Nat × Int → W)
    (form : Nat → List Int → List W → Res (Nat → V)) {f : List Int → Nat → V}
    (hf : Evaluates colloc axs dof (neqs colloc axs * dof) u form f)
    {x : List Int} (hx : InBlock (L.dir.map Dir.elemStart) (L.dir.map Dir.elemWidth) x) :
    elemVec colloc (lgmap (world (appWorld Ls)) (L.dir.map gdir)) L dof
      (fun k => globalToLocal (world (appWorld Ls)) dof gvec junk (r, k)) (form r) x =
    .ok (contribVec colloc axs (fun y => appToPetsc (world (appWorld Ls)) (flat (axs.map Axis.nnp) y)) dof (f x) x) := by
  obtain ⟨cds, map, row, e1, e2, e3, e4, e5, e6, e7, e8⟩ := elem_ok S h hu junk hx
  obtain ⟨F, hF, hF'⟩ := hf r x (block_inBox (S.get h).2.2.1 hx)
  rw [← contribVec_congr colloc axs _ dof x hF']
  unfold elemVec
  simp only [e1, e2, e3, Res.bind, addVec]
  rw [e4, hF, e6]
  simp only [lookupAll_ok S h _ e8]
  simp only [contribVec, List.zipIdx_map, List.flatMap_map]
  rfl

/-- Contributions of one element to the matrix. -/
def contribMat {V : Type} (colloc : Bool) (axs : List (Axis K)) (G : List Int → Int) (dof : Nat) (A : Nat → V) (e : List Int) :
    List ((Int × Int) × V) :=
  (rowNodes colloc axs e).zipIdx.flatMap fun ya => (List.range dof).flatMap fun (c : Nat) =>
    ((indices (nens axs)).map (plus (firstNodes colloc axs e))).zipIdx.flatMap fun zb => (List.range dof).map fun (d : Nat) =>
      (((dof:Int) * G (modAll (axs.map Axis.nnp) ya.1) + c, (dof:Int) * G (modAll (axs.map Axis.nnp) zb.1) + d),
        A ((ya.2 * dof + c) * ((indices (nens axs)).length * dof) + (zb.2 * dof + d)))

theorem contribMat_congr {V : Type} (colloc : Bool) (axs : List (Axis K)) (G : List Int → Int) (dof : Nat) {A A' : Nat → V}
    (e : List Int) (h : ∀ i : Nat, i < neqs colloc axs * dof * ((indices (nens axs)).length * dof) → A i = A' i) :
    contribMat colloc axs G dof A e = contribMat colloc axs G dof A' e := by
  unfold contribMat
  rw [List.flatMap_def, List.flatMap_def]
  congr 1
  apply List.map_congr_left
  rintro ⟨y, a⟩ hy
  have ha : a < neqs colloc axs := by
    rw [List.mem_zipIdx_iff_getElem?] at hy
    rw [← rowNodes_length colloc axs e]
    exact (List.getElem?_eq_some_iff.1 hy).1
  rw [List.flatMap_def, List.flatMap_def]
  congr 1
  apply List.map_congr_left
  intro c hc
  rw [List.mem_range] at hc
  rw [List.flatMap_def, List.flatMap_def]
  congr 1
  apply List.map_congr_left
  rintro ⟨z, b⟩ hz
  have hb : b < (indices (nens axs)).length := by
    rw [List.mem_zipIdx_iff_getElem?] at hz
    simpa using (List.getElem?_eq_some_iff.1 hz).1
  apply List.map_congr_left
  intro d hd
  rw [List.mem_range] at hd
  dsimp only
  rw [h]
  have h1 : a * dof + c + 1 ≤ neqs colloc axs * dof := by
    calc a * dof + c + 1 ≤ a * dof + dof := by omega
      _ = (a + 1) * dof := by ring
      _ ≤ _ := Nat.mul_le_mul_right _ ha
  have h2 : b * dof + d + 1 ≤ (indices (nens axs)).length * dof := by
    calc b * dof + d + 1 ≤ b * dof + dof := by omega
      _ = (b + 1) * dof := by ring
      _ ≤ _ := Nat.mul_le_mul_right _ hb
  calc (a * dof + c) * ((indices (nens axs)).length * dof) + (b * dof + d)
      < (a * dof + c) * ((indices (nens axs)).length * dof) + (indices (nens axs)).length * dof := by omega
    _ = (a * dof + c + 1) * ((indices (nens axs)).length * dof) := by ring
    _ ≤ _ := Nat.mul_le_mul_right _ h1

theorem elemMat_ok {W V : Type} (S : Setup g2 g3 colloc size procs axes axs Ls) {r : Nat} {L : Layout K} (h : Ls[r]? = some L)
    {dof : Nat} {gvec : Int → W} {u : List Int → Nat → W} (hu : Represents axs Ls dof gvec u) (junk : Nat × Int → W)
    (form : Nat → List Int → List W → Res (Nat → V)) {f : List Int → Nat → V}
    (hf : Evaluates colloc axs dof (neqs colloc axs * dof * ((indices (nens axs)).length * dof)) u form f)
    {x : List Int} (hx : InBlock (L.dir.map Dir.elemStart) (L.dir.map Dir.elemWidth) x) :
    elemMat colloc (lgmap (world (appWorld Ls)) (L.dir.map gdir)) L dof
      (fun k => globalToLocal (world (appWorld Ls)) dof gvec junk (r, k)) (form r) x =
    .ok (contribMat colloc axs (fun y => appToPetsc (world (appWorld Ls)) (flat (axs.map Axis.nnp) y)) dof (f x) x) := by
  obtain ⟨cds, map, row, e1, e2, e3, e4, e5, e6, e7, e8⟩ := elem_ok S h hu junk hx
  obtain ⟨F, hF, hF'⟩ := hf r x (block_inBox (S.get h).2.2.1 hx)
  rw [← contribMat_congr colloc axs _ dof x hF']
  unfold elemMat
  simp only [e1, e2, e3, Res.bind, addMat]
  have hlen : map.length = (indices (nens axs)).length := by rw [e5]; simp
  rw [e4, hF, hlen, e6, e5]
  simp only [lookupAll_ok S h _ e8, lookupAll_ok S h _ e7]
  simp only [contribMat, List.zipIdx_map, List.flatMap_map]
  rfl

/-! ### The elements of all processes -/

/-- The list of visited elements. -/
def visitedList (L : Layout K) (h : Hist) : List (List Int) :=
  (loop (fun _ => false) (h.calls.foldl call (init L.dir h.atb h.bid))).2.1

theorem visited_ok (S : Setup g2 g3 colloc size procs axes axs Ls) {r : Nat} {L : Layout K} (h : Ls[r]? = some L) (hi : Hist) :
    visited L hi = .ok (visitedList L hi) ∧
    ∀ x ∈ visitedList L hi, InBlock (L.dir.map Dir.elemStart) (L.dir.map Dir.elemWidth) x := by
  obtain ⟨h1, h2, hd, hg⟩ := S.get h
  have hw : ∀ d ∈ L.dir, 1 ≤ d.elemWidth := by
    intro d hm
    obtain ⟨i, hi⟩ := List.getElem?_of_mem hm
    obtain ⟨a, ha⟩ : ∃ a, axs[i]? = some a := by
      have := (List.getElem?_eq_some_iff.1 hi).1
      rw [← hd.length_eq] at this
      exact ⟨axs[i], by simp [this]⟩
    have := List.forall₂_iff_get.1 hd
    obtain ⟨i1, i2⟩ := List.getElem?_eq_some_iff.1 hi
    obtain ⟨j1, j2⟩ := List.getElem?_eq_some_iff.1 ha
    have := this.2 i j1 i1
    simp only [List.get_eq_getElem, i2, j2] at this
    exact this.inside.2.1
  obtain ⟨v0, v1, v2⟩ := loop_visits L.dir hw hi.atb hi.bid hi.calls
  refine ⟨?_, ?_⟩
  · unfold visited
    simp only [v0, Res.bind]
    rfl
  · intro x hx
    by_contra hc
    have := v2 x hc
    rw [List.count_eq_zero] at this
    exact this hx

theorem sum_zipIdx {α V : Type} [AddCommMonoid V] (l : List α) (f : Nat → V) :
    (l.zipIdx.map fun p => f p.2).sum = ((List.range l.length).map f).sum := by
  have : (l.zipIdx.map fun p => f p.2) = (l.zipIdx.map Prod.snd).map f := by rw [List.map_map]; rfl
  rw [this, List.zipIdx_map_snd, List.range_eq_range']

/-- Together the processes visit every element exactly once. -/
theorem visited_perm (S : Setup g2 g3 colloc size procs axes axs Ls) (hist : Nat → Hist) :
    (Ls.zipIdx.flatMap fun Lr => visitedList Lr.1 (hist Lr.2)).Perm (indices (axs.map (gridSize colloc))) := by
  rw [List.perm_iff_count]
  intro x
  rw [List.count_flatMap]
  have hget : ∀ Lr ∈ Ls.zipIdx, Ls[Lr.2]? = some Lr.1 := fun Lr h => by
    rw [List.mem_zipIdx_iff_getElem?] at h; exact h
  by_cases hx : InBox (axs.map (gridSize colloc)) x
  · rw [List.count_eq_one_of_mem (nodup_indices _) ((mem_indices _ _).2 hx)]
    have hlen := S.ranks.1
    have hne := S.nonempty
    obtain ⟨L, hL⟩ : ∃ L, Ls[0]? = some L := ⟨Ls[0]'(by omega), by simp⟩
    obtain ⟨h1, h2, -, -⟩ := S.get hL
    obtain ⟨-, H⟩ := C03_each_element_once g2 g3 colloc size _ procs axes L S.reached h1
    obtain ⟨r, ⟨r0, r1⟩, hr⟩ := H x (by rw [h2]; exact hx)
    have e : (Ls.zipIdx.map (List.count x ∘ fun Lr => visitedList Lr.1 (hist Lr.2))) =
        Ls.zipIdx.map fun Lr => (fun i : Nat => if (i:Int) = r then 1 else 0) Lr.2 := by
      apply List.map_congr_left
      intro Lr hm
      exact hr _ _ (S.get (hget Lr hm)).1 _ _ _
    rw [e, sum_zipIdx Ls (fun i : Nat => if (i:Int) = r then 1 else 0), sum_single Ls.length r.toNat (by omega)]
    · exact if_pos (by omega)
    · intro k _ hk; exact if_neg (by omega)
  · rw [List.count_eq_zero.2 fun hm => hx ((mem_indices _ _).1 hm)]
    apply sum_zero
    intro Lr hm
    dsimp only [Function.comp_apply]
    rw [List.count_eq_zero]
    intro hv
    obtain ⟨-, -, hd, -⟩ := S.get (hget Lr hm)
    exact hx (block_inBox hd ((visited_ok S (hget Lr hm) _).2 x hv))

/-- A sum over what all processes do is a sum over the elements. -/
theorem sum_ranks {V : Type} [AddCommMonoid V] (S : Setup g2 g3 colloc size procs axes axs Ls) (hist : Nat → Hist)
    (f : List Int → V) :
    (Ls.zipIdx.map fun Lr => ((visitedList Lr.1 (hist Lr.2)).map f).sum).sum =
      ((indices (axs.map (gridSize colloc))).map f).sum := by
  rw [← ((visited_perm S hist).map f).sum_eq, List.map_flatMap, List.flatMap_def, List.sum_flatten, List.map_map]
  rfl

/-- Assembled sums over all processes. -/
theorem ranks_ok {ι V : Type} [DecidableEq ι] [AddCommMonoid V] (S : Setup g2 g3 colloc size procs axes axs Ls)
    (hist : Nat → Hist) (el : Layout K × Nat → List Int → Res (List (ι × V))) (con : List Int → List (ι × V))
    (h : ∀ (r : Nat) L, Ls[r]? = some L → ∀ x, InBlock (L.dir.map Dir.elemStart) (L.dir.map Dir.elemWidth) x →
      el (L, r) x = .ok (con x)) :
    ∃ ps, collect (Ls.zipIdx.map fun Lr => rankLoop Lr.1 (hist Lr.2) (el Lr)) = .ok ps ∧
      ∀ i, assembled ps i = ((indices (axs.map (gridSize colloc))).map fun e => assembled (con e) i).sum := by
  refine ⟨Ls.zipIdx.flatMap fun Lr => (visitedList Lr.1 (hist Lr.2)).flatMap con, ?_, ?_⟩
  · apply collect_ok
    rintro ⟨L, r⟩ hm
    rw [List.mem_zipIdx_iff_getElem?] at hm
    obtain ⟨v1, v2⟩ := visited_ok S hm (hist r)
    unfold rankLoop
    dsimp only
    rw [v1]
    exact collect_ok _ _ _ fun x hx => h r L hm x (v2 x hx)
  · intro i
    rw [assembled_flatMap, ← sum_ranks S hist]
    congr 1
    apply List.map_congr_left
    intro Lr _
    exact assembled_flatMap _ _ _

/-! ### The sum of one element -/

theorem index_eq {dof : Nat} {g g' : Int} {c c' : Nat} (hc : c < dof) (hc' : c' < dof) :
    (dof:Int) * g + c = (dof:Int) * g' + c' ↔ g = g' ∧ c = c' := by
  constructor
  · intro h; exact block_inj hc hc' h
  · rintro ⟨rfl, rfl⟩; rfl

theorem contribVec_sum {V : Type} [AddCommMonoid V] (axs : List (Axis K)) (G : List Int → Int) (dof : Nat)
    (F : Nat → V) (e z : List Int) (c : Nat) (hc : c < dof)
    (hG : ∀ y ∈ rowNodes colloc axs e, G (modAll (axs.map Axis.nnp) y) = G z → modAll (axs.map Axis.nnp) y = z) :
    assembled (contribVec colloc axs G dof F e) ((dof:Int) * G z + c) =
      ((rowNodes colloc axs e).zipIdx.map fun ya => if modAll (axs.map Axis.nnp) ya.1 = z then F (ya.2 * dof + c) else 0).sum := by
  unfold contribVec
  rw [assembled_flatMap]
  congr 1
  apply List.map_congr_left
  rintro ⟨y, a⟩ hy
  have hy' : y ∈ rowNodes colloc axs e := by
    rw [List.mem_zipIdx_iff_getElem?] at hy; exact List.mem_of_getElem? hy
  rw [assembled_map, sum_single dof c hc]
  · dsimp only
    by_cases hz : modAll (axs.map Axis.nnp) y = z
    · rw [if_pos hz, if_pos (by rw [hz])]
    · rw [if_neg hz, if_neg]
      intro hh
      exact hz (hG y hy' ((index_eq hc hc).1 hh).1)
  · intro k hk hkc
    rw [if_neg]
    intro hh
    exact hkc ((index_eq hk hc).1 hh).2

theorem contribMat_sum {V : Type} [AddCommMonoid V] (axs : List (Axis K)) (G : List Int → Int) (dof : Nat)
    (A : Nat → V) (e z w : List Int) (c d : Nat) (hc : c < dof) (hd : d < dof)
    (hG : ∀ y ∈ rowNodes colloc axs e, G (modAll (axs.map Axis.nnp) y) = G z → modAll (axs.map Axis.nnp) y = z)
    (hH : ∀ y ∈ (indices (nens axs)).map (plus (firstNodes colloc axs e)),
      G (modAll (axs.map Axis.nnp) y) = G w → modAll (axs.map Axis.nnp) y = w) :
    assembled (contribMat colloc axs G dof A e) ((dof:Int) * G z + c, (dof:Int) * G w + d) =
      ((rowNodes colloc axs e).zipIdx.map fun ya =>
        (((indices (nens axs)).map (plus (firstNodes colloc axs e))).zipIdx.map fun zb =>
          if modAll (axs.map Axis.nnp) ya.1 = z ∧ modAll (axs.map Axis.nnp) zb.1 = w then
            A ((ya.2 * dof + c) * ((indices (nens axs)).length * dof) + (zb.2 * dof + d)) else 0).sum).sum := by
  unfold contribMat
  rw [assembled_flatMap]
  congr 1
  apply List.map_congr_left
  rintro ⟨y, a⟩ hy
  have hy' : y ∈ rowNodes colloc axs e := by
    rw [List.mem_zipIdx_iff_getElem?] at hy; exact List.mem_of_getElem? hy
  rw [assembled_flatMap, sum_single dof c hc]
  · rw [assembled_flatMap]
    congr 1
    apply List.map_congr_left
    rintro ⟨v, b⟩ hv
    have hv' : v ∈ (indices (nens axs)).map (plus (firstNodes colloc axs e)) := by
      rw [List.mem_zipIdx_iff_getElem?] at hv; exact List.mem_of_getElem? hv
    rw [assembled_map, sum_single dof d hd]
    · dsimp only
      by_cases hz : modAll (axs.map Axis.nnp) y = z ∧ modAll (axs.map Axis.nnp) v = w
      · rw [if_pos hz, if_pos (by rw [hz.1, hz.2])]
      · rw [if_neg hz, if_neg]
        intro hh
        rw [Prod.mk.injEq] at hh
        exact hz ⟨hG y hy' ((index_eq hc hc).1 hh.1).1, hH v hv' ((index_eq hd hd).1 hh.2).1⟩
    · intro k hk hkc
      rw [if_neg]
      intro hh
      rw [Prod.mk.injEq] at hh
      exact hkc ((index_eq hk hd).1 hh.2).2
  · intro k hk hkc
    rw [assembled_flatMap]
    apply sum_zero
    rintro ⟨v, b⟩ hv
    rw [assembled_map]
    apply sum_zero
    intro k' hk'
    rw [if_neg]
    intro hh
    rw [Prod.mk.injEq] at hh
    exact hkc ((index_eq hk hc).1 hh.1).2

/-! ### Theorems -/

theorem modAll_inBox : ∀ {Ns y : List Int}, (∀ n ∈ Ns, 1 ≤ n) → y.length = Ns.length → InBox Ns (modAll Ns y)
  | [], [], _, _ => .nil
  | n :: Ns, i :: y, h, hl => by
    have hn := h n (by simp)
    exact .cons ⟨Int.emod_nonneg _ (by omega), Int.emod_lt_of_pos _ (by omega)⟩
      (modAll_inBox (fun m hm => h m (by simp [hm])) (by simpa using hl))
  | [], _ :: _, _, h => by simp at h
  | _ :: _, [], _, h => by simp at h

theorem inBox_length {ns x : List Int} (h : InBox ns x) : x.length = ns.length := by
  induction h with
  | nil => rfl
  | cons _ _ ih => simp [ih]

theorem plus_length (axs : List (Axis K)) {e t : List Int} (he : e.length = axs.length) (ht : t ∈ indices (nens axs)) :
    (plus (firstNodes colloc axs e) t).length = (axs.map Axis.nnp).length := by
  have := inBox_length ((mem_indices _ _).1 ht)
  simp only [nens, List.length_map] at this
  simp [plus, firstNodes, he, this]

theorem row_length (axs : List (Axis K)) {e y : List Int} (he : e.length = axs.length) (hy : y ∈ rowNodes colloc axs e) :
    y.length = (axs.map Axis.nnp).length := by
  unfold rowNodes at hy
  split at hy
  · rw [List.mem_singleton] at hy; subst hy; simpa using he
  · rw [List.mem_map] at hy
    obtain ⟨t, ht, rfl⟩ := hy
    exact plus_length axs he ht

theorem vector_ok {W V : Type} [AddCommMonoid V] (S : Setup g2 g3 colloc size procs axes axs Ls) (hist : Nat → Hist) (dof : Nat)
    (gvec : Int → W) (junk : Nat × Int → W) (u : List Int → Nat → W) (hu : Represents axs Ls dof gvec u)
    (form : Nat → List Int → List W → Res (Nat → V)) (f : List Int → Nat → V)
    (hf : Evaluates colloc axs dof (neqs colloc axs * dof) u form f) :
    ∃ v, computeVec colloc Ls hist dof gvec junk form = .ok v ∧
      Represents axs Ls dof v fun z c => ((indices (axs.map (gridSize colloc))).map fun e =>
        ((rowNodes colloc axs e).zipIdx.map fun ya => if modAll (axs.map Axis.nnp) ya.1 = z then
          f e (ya.2 * dof + c) else 0).sum).sum := by
  obtain ⟨ps, h1, h2⟩ := ranks_ok S hist (fun Lr => elemVec colloc (lgmap (world (appWorld Ls)) (Lr.1.dir.map gdir)) Lr.1 dof
    (fun k => globalToLocal (world (appWorld Ls)) dof gvec junk (Lr.2, k)) (form Lr.2)) _
    (fun r L h x hx => elemVec_ok S h hu junk form hf hx)
  obtain ⟨D, hp⟩ := S.grid
  refine ⟨assembled ps, ?_, ?_⟩
  · unfold computeVec
    simp only [h1, Res.bind]
  · intro z c hz hc
    rw [h2]
    congr 1
    apply List.map_congr_left
    intro e he
    have hl : e.length = axs.length := by simpa using inBox_length ((mem_indices _ _).1 he)
    exact contribVec_sum axs (fun y => appToPetsc (world (appWorld Ls)) (flat (axs.map Axis.nnp) y)) dof _ e z c hc
      fun y hy hh => (C26_global_numbering _ _ D hp).2.1 _ _ (modAll_inBox hp (row_length axs hl hy)) hz hh

theorem matrix_ok {W V : Type} [AddCommMonoid V] (S : Setup g2 g3 colloc size procs axes axs Ls) (hist : Nat → Hist) (dof : Nat)
    (gvec : Int → W) (junk : Nat × Int → W) (u : List Int → Nat → W) (hu : Represents axs Ls dof gvec u)
    (form : Nat → List Int → List W → Res (Nat → V)) (f : List Int → Nat → V)
    (hf : Evaluates colloc axs dof (neqs colloc axs * dof * ((indices (nens axs)).length * dof)) u form f) :
    ∃ A, computeMat colloc Ls hist dof gvec junk form = .ok A ∧ ∀ z w (c d : Nat), InBox (axs.map Axis.nnp) z →
      InBox (axs.map Axis.nnp) w → c < dof → d < dof →
      A ((dof:Int) * appToPetsc (world (appWorld Ls)) (flat (axs.map Axis.nnp) z) + c,
         (dof:Int) * appToPetsc (world (appWorld Ls)) (flat (axs.map Axis.nnp) w) + d) =
        ((indices (axs.map (gridSize colloc))).map fun e =>
        ((rowNodes colloc axs e).zipIdx.map fun ya =>
        (((indices (nens axs)).map (plus (firstNodes colloc axs e))).zipIdx.map fun zb =>
          if modAll (axs.map Axis.nnp) ya.1 = z ∧ modAll (axs.map Axis.nnp) zb.1 = w then
            f e
              ((ya.2 * dof + c) * ((indices (nens axs)).length * dof) + (zb.2 * dof + d)) else 0).sum).sum).sum := by
  obtain ⟨ps, h1, h2⟩ := ranks_ok S hist (fun Lr => elemMat colloc (lgmap (world (appWorld Ls)) (Lr.1.dir.map gdir)) Lr.1 dof
    (fun k => globalToLocal (world (appWorld Ls)) dof gvec junk (Lr.2, k)) (form Lr.2)) _
    (fun r L h x hx => elemMat_ok S h hu junk form hf hx)
  obtain ⟨D, hp⟩ := S.grid
  refine ⟨assembled ps, ?_, ?_⟩
  · unfold computeMat
    simp only [h1, Res.bind]
  · intro z w c d hz hw hc hd
    rw [h2]
    congr 1
    apply List.map_congr_left
    intro e he
    have hl : e.length = axs.length := by simpa using inBox_length ((mem_indices _ _).1 he)
    refine contribMat_sum axs (fun y => appToPetsc (world (appWorld Ls)) (flat (axs.map Axis.nnp) y)) dof _ e z w c d hc hd
      (fun y hy hh => (C26_global_numbering _ _ D hp).2.1 _ _ (modAll_inBox hp (row_length axs hl hy)) hz hh) ?_
    intro y hy hh
    rw [List.mem_map] at hy
    obtain ⟨t, ht, rfl⟩ := hy
    exact (C26_global_numbering _ _ D hp).2.1 _ _ (modAll_inBox hp (plus_length axs hl ht)) hw hh

theorem sum_indices {V : Type} [AddCommMonoid V] (axs : List (Axis K)) (o : List Int) (f : List Int → Nat → V) :
    (((indices (nens axs)).map (plus o)).zipIdx.map fun ya => f ya.1 ya.2).sum =
      ((indices (nens axs)).map fun t => f (plus o t) (flat (nens axs) t).toNat).sum := by
  rw [List.zipIdx_map, zipIdx_indices, List.map_map, List.map_map]
  rfl

/-- **C51**, vectors, Galerkin discretisations: whatever the number of processes, the processor grid, the guesses of
`sqrt`/`pow` that lead to it and the history `hist` of each process' element iterator, the assembled vector stores at
every node the sum over all elements and local basis functions of the element contributions to that node. -/
theorem C51_vector_partial {W V : Type} [AddCommMonoid V] (S : Setup g2 g3 false size procs axes axs Ls) (hist : Nat → Hist)
    (dof : Nat) (gvec : Int → W) (junk : Nat × Int → W) (u : List Int → Nat → W) (hu : Represents axs Ls dof gvec u)
    (form : Nat → List Int → List W → Res (Nat → V)) (f : List Int → Nat → V)
    (hf : Evaluates false axs dof ((indices (nens axs)).length * dof) u form f) :
    ∃ v, computeVec false Ls hist dof gvec junk form = .ok v ∧
      Represents axs Ls dof v fun z c => ((indices (axs.map Axis.nel)).map fun e => ((indices (nens axs)).map fun t =>
        if nodeOf false axs e t = z then
          f e ((flat (nens axs) t).toNat * dof + c) else 0).sum).sum := by
  obtain ⟨v, h1, h2⟩ := vector_ok S hist dof gvec junk u hu form f (by simpa [neqs] using hf)
  refine ⟨v, h1, ?_⟩
  intro z c hz hc
  rw [h2 z c hz hc]
  show ((indices (axs.map Axis.nel)).map _).sum = _
  congr 1
  apply List.map_congr_left
  intro e _
  exact sum_indices axs (firstNodes false axs e) (fun y k => if modAll (axs.map Axis.nnp) y = z then
    f e (k * dof + c) else 0)

/-- **C51**, vectors, collocation: the vector stores at node `z` what the form computed at collocation point `z`. -/
theorem C51_vector_collocation_partial {W V : Type} [AddCommMonoid V] (S : Setup g2 g3 true size procs axes axs Ls)
    (hist : Nat → Hist) (dof : Nat) (gvec : Int → W) (junk : Nat × Int → W) (u : List Int → Nat → W)
    (hu : Represents axs Ls dof gvec u) (form : Nat → List Int → List W → Res (Nat → V)) (f : List Int → Nat → V)
    (hf : Evaluates true axs dof (dof) u form f) :
    ∃ v, computeVec true Ls hist dof gvec junk form = .ok v ∧
      Represents axs Ls dof v fun z c => f z c := by
  obtain ⟨v, h1, h2⟩ := vector_ok S hist dof gvec junk u hu form f (by simpa [neqs] using hf)
  refine ⟨v, h1, ?_⟩
  intro z c hz hc
  rw [h2 z c hz hc]
  show ((indices (axs.map Axis.nnp)).map _).sum = _
  rw [sum_nodup (nodup_indices _) ((mem_indices _ _).2 hz)]
  · simp [rowNodes, modAll_self hz]
  · intro e he hne
    simp [rowNodes, modAll_self ((mem_indices _ _).1 he), hne]

/-- **C51**, matrices, Galerkin discretisations. -/
theorem C51_matrix_partial {W V : Type} [AddCommMonoid V] (S : Setup g2 g3 false size procs axes axs Ls) (hist : Nat → Hist)
    (dof : Nat) (gvec : Int → W) (junk : Nat × Int → W) (u : List Int → Nat → W) (hu : Represents axs Ls dof gvec u)
    (form : Nat → List Int → List W → Res (Nat → V)) (f : List Int → Nat → V)
    (hf : Evaluates false axs dof ((indices (nens axs)).length * dof * ((indices (nens axs)).length * dof)) u form f) :
    ∃ A, computeMat false Ls hist dof gvec junk form = .ok A ∧
      RepresentsMat axs Ls dof A fun z c w d => ((indices (axs.map Axis.nel)).map fun e => ((indices (nens axs)).map fun s =>
        ((indices (nens axs)).map fun t => if nodeOf false axs e s = z ∧ nodeOf false axs e t = w then
          f e (((flat (nens axs) s).toNat * dof + c) * ((indices (nens axs)).length * dof) +
            ((flat (nens axs) t).toNat * dof + d)) else 0).sum).sum).sum := by
  obtain ⟨A, h1, h2⟩ := matrix_ok S hist dof gvec junk u hu form f (by simpa [neqs] using hf)
  refine ⟨A, h1, ?_⟩
  intro z c w d hz hw hc hd
  rw [h2 z w c d hz hw hc hd]
  show ((indices (axs.map Axis.nel)).map _).sum = _
  congr 1
  apply List.map_congr_left
  intro e _
  refine (sum_indices axs (firstNodes false axs e) (fun y k => (((indices (nens axs)).map (plus (firstNodes false axs e))).zipIdx.map
    fun zb => if modAll (axs.map Axis.nnp) y = z ∧ modAll (axs.map Axis.nnp) zb.1 = w then f e
      ((k * dof + c) * ((indices (nens axs)).length * dof) + (zb.2 * dof + d)) else 0).sum)).trans ?_
  congr 1
  apply List.map_congr_left
  intro s _
  exact sum_indices axs (firstNodes false axs e) (fun y k =>
    if modAll (axs.map Axis.nnp) (plus (firstNodes false axs e) s) = z ∧ modAll (axs.map Axis.nnp) y = w then
      f e (((flat (nens axs) s).toNat * dof + c) * ((indices (nens axs)).length * dof) +
        (k * dof + d)) else 0)

/-- **C51**, matrices, collocation: row `z` comes from collocation point `z` alone. -/
theorem C51_matrix_collocation_partial {W V : Type} [AddCommMonoid V] (S : Setup g2 g3 true size procs axes axs Ls)
    (hist : Nat → Hist) (dof : Nat) (gvec : Int → W) (junk : Nat × Int → W) (u : List Int → Nat → W)
    (hu : Represents axs Ls dof gvec u) (form : Nat → List Int → List W → Res (Nat → V)) (f : List Int → Nat → V)
    (hf : Evaluates true axs dof (dof * ((indices (nens axs)).length * dof)) u form f) :
    ∃ A, computeMat true Ls hist dof gvec junk form = .ok A ∧
      RepresentsMat axs Ls dof A fun z c w d => ((indices (nens axs)).map fun t => if nodeOf true axs z t = w then
          f z (c * ((indices (nens axs)).length * dof) +
            ((flat (nens axs) t).toNat * dof + d)) else 0).sum := by
  obtain ⟨A, h1, h2⟩ := matrix_ok S hist dof gvec junk u hu form f (by simpa [neqs] using hf)
  refine ⟨A, h1, ?_⟩
  intro z c w d hz hw hc hd
  rw [h2 z w c d hz hw hc hd]
  show ((indices (axs.map Axis.nnp)).map _).sum = _
  rw [sum_nodup (nodup_indices _) ((mem_indices _ _).2 hz)]
  · simp only [rowNodes, if_true, List.zipIdx_singleton, List.map_cons, List.map_nil, List.sum_cons, List.sum_nil, add_zero,
      modAll_self hz, true_and, zero_mul, zero_add]
    exact sum_indices axs (firstNodes true axs z) (fun y k => if modAll (axs.map Axis.nnp) y = w then
      f z (c * ((indices (nens axs)).length * dof) + (k * dof + d)) else 0)
  · intro e he hne
    simp only [rowNodes, if_true, List.zipIdx_singleton, List.map_cons, List.map_nil, List.sum_cons, List.sum_nil, add_zero,
      modAll_self ((mem_indices _ _).1 he), hne, false_and, if_false, List.map_const', List.sum_replicate, smul_zero]

/-- **C51**: two decompositions of the same discretisation — other numbers of processes, processor grids, iterator
histories, contents of local vectors — produce vectors and matrices with the same entries at the same nodes. -/
theorem C51_independent_partial {W V : Type} [AddCommMonoid V] {g2' : Guess2} {g3' : Guess3} {size' : Int} {procs' : List Int}
    {Ls' : List (Layout K)}
    (S : Setup g2 g3 colloc size procs axes axs Ls) (S' : Setup g2' g3' colloc size' procs' axes axs Ls')
    (hist hist' : Nat → Hist) (dof : Nat) (gvec gvec' : Int → W) (junk junk' : Nat × Int → W) (u : List Int → Nat → W)
    (hu : Represents axs Ls dof gvec u) (hu' : Represents axs Ls' dof gvec' u)
    (vform vform' mform mform' : Nat → List Int → List W → Res (Nat → V)) (f a : List Int → Nat → V)
    (hv : Evaluates colloc axs dof (neqs colloc axs * dof) u vform f)
    (hv' : Evaluates colloc axs dof (neqs colloc axs * dof) u vform' f)
    (hm : Evaluates colloc axs dof (neqs colloc axs * dof * ((indices (nens axs)).length * dof)) u mform a)
    (hm' : Evaluates colloc axs dof (neqs colloc axs * dof * ((indices (nens axs)).length * dof)) u mform' a) :
    (∃ v v' x, computeVec colloc Ls hist dof gvec junk vform = .ok v ∧ computeVec colloc Ls' hist' dof gvec' junk' vform' = .ok v' ∧
      Represents axs Ls dof v x ∧ Represents axs Ls' dof v' x) ∧
    ∃ A A' x, computeMat colloc Ls hist dof gvec junk mform = .ok A ∧ computeMat colloc Ls' hist' dof gvec' junk' mform' = .ok A' ∧
      RepresentsMat axs Ls dof A x ∧ RepresentsMat axs Ls' dof A' x := by
  constructor
  · obtain ⟨v, h1, h2⟩ := vector_ok S hist dof gvec junk u hu vform f hv
    obtain ⟨v', h1', h2'⟩ := vector_ok S' hist' dof gvec' junk' u hu' vform' f hv'
    exact ⟨v, v', _, h1, h1', h2, h2'⟩
  · obtain ⟨A, h1, h2⟩ := matrix_ok S hist dof gvec junk u hu mform a hm
    obtain ⟨A', h1', h2'⟩ := matrix_ok S' hist' dof gvec' junk' u hu' mform' a hm'
    exact ⟨A, A', fun z c w d => _, h1, h1', fun z c w d hz hw hc hd => h2 z w c d hz hw hc hd,
      fun z c w d hz hw hc hd => h2' z w c d hz hw hc hd⟩

/-! ### Functionals -/

/-- The callback computes the `n` numbers `s`; it gets a zeroed array and may assume so. -/
def Computes {P : Type} (n : Nat) (scalar : P → List ℝ → (Nat → ℝ) → Res (Nat → ℝ)) (s : P → List ℝ → Nat → ℝ) : Prop :=
  ∀ p U w, (∀ i : Nat, i < n → w i = 0) → ∃ w', scalar p U w = .ok w' ∧ ∀ i : Nat, i < n → w' i = s p U i

theorem pointLoop_ok {P : Type} {n : Nat} {scalar : P → List ℝ → (Nat → ℝ) → Res (Nat → ℝ)} {s : P → List ℝ → Nat → ℝ}
    (hs : Computes n scalar s) (U : List ℝ) (qs : List (QPoint P)) : ∀ (index : Nat) (w l : Nat → ℝ),
    ∃ w', pointLoop n scalar U index qs w l = .ok (w', fun i => if i < n then
      l i + (qs.map fun q => s q.data U i * (q.detJac * q.weight)).sum else l i) := by
  induction qs with
  | nil => intro index w l; exact ⟨w, by simp [pointLoop]⟩
  | cons q qs ih =>
    intro index w l
    obtain ⟨w1, h1, h2⟩ := hs q.data U (fun i => if i < n then 0 else w i) (fun i hi => if_pos hi)
    obtain ⟨w2, h3⟩ := ih (index+1) w1 (fun i => if i < n then l i + w1 i * (q.detJac * q.weight) else l i)
    refine ⟨w2, ?_⟩
    unfold pointLoop
    rw [h1]
    simp only [Res.bind, Ker.pointAddArray, if_neg (show ¬ (index:Int) < 0 by omega)]
    rw [h3]
    congr 2
    funext i
    by_cases hi : i < n
    · simp only [if_pos hi, List.map_cons, List.sum_cons, h2 i hi]; ring
    · simp only [if_neg hi]

theorem scalarElems_ok {P : Type} (S : Setup g2 g3 colloc size procs axes axs Ls) {r : Nat} {L : Layout K} (h : Ls[r]? = some L)
    {dof : Nat} {gvec : Int → ℝ} {u : List Int → Nat → ℝ} (hu : Represents axs Ls dof gvec u) (junk : Nat × Int → ℝ)
    {n : Nat} {scalar : P → List ℝ → (Nat → ℝ) → Res (Nat → ℝ)} {s : P → List ℝ → Nat → ℝ} (hs : Computes n scalar s)
    (points : List Int → List (QPoint P)) (xs : List (List Int))
    (hx : ∀ x ∈ xs, InBlock (L.dir.map Dir.elemStart) (L.dir.map Dir.elemWidth) x) : ∀ (w l : Nat → ℝ),
    scalarElems colloc L dof n (fun k => globalToLocal (world (appWorld Ls)) dof gvec junk (r, k)) points scalar xs w l =
      .ok fun i => if i < n then l i + (xs.map fun x =>
        ((points x).map fun q => s q.data (valuesOf colloc axs dof u x) i * (q.detJac * q.weight)).sum).sum else l i := by
  induction xs with
  | nil => intro w l; simp [scalarElems]
  | cons x xs ih =>
    intro w l
    obtain ⟨cds, map, row, e1, e2, -, e4, -⟩ := elem_ok S h hu junk (hx x (by simp))
    obtain ⟨w2, h3⟩ := pointLoop_ok hs (valuesOf colloc axs dof u x) (points x) 0 w l
    unfold scalarElems
    rw [e1]
    simp only [Res.bind, e2, e4, h3]
    rw [ih fun y hy => hx y (by simp [hy])]
    congr 1
    funext i
    by_cases hi : i < n
    · simp only [if_pos hi, List.map_cons, List.sum_cons]; ring
    · simp only [if_neg hi]

theorem scalarRanks_ok {P : Type} (S : Setup g2 g3 colloc size procs axes axs Ls)
    {dof : Nat} {gvec : Int → ℝ} {u : List Int → Nat → ℝ} (hu : Represents axs Ls dof gvec u) (junk : Nat × Int → ℝ)
    {n : Nat} {scalar : P → List ℝ → (Nat → ℝ) → Res (Nat → ℝ)} {s : P → List ℝ → Nat → ℝ} (hs : Computes n scalar s)
    (points : List Int → List (QPoint P)) (hist : Nat → Hist) (heap : Nat → Nat → ℝ) :
    ∀ (l : List (Layout K × Nat)), (∀ Lr ∈ l, Ls[Lr.2]? = some Lr.1) →
    scalarRanks colloc dof n (globalToLocal (world (appWorld Ls)) dof gvec junk) hist heap points scalar l =
      .ok (l.map fun Lr => fun i => if i < n then ((visitedList Lr.1 (hist Lr.2)).map fun x =>
        ((points x).map fun q => s q.data (valuesOf colloc axs dof u x) i * (q.detJac * q.weight)).sum).sum else 0) := by
  intro l
  induction l with
  | nil => intro _; rfl
  | cons Lr l ih =>
    intro hl
    have h := hl Lr (by simp)
    obtain ⟨v1, v2⟩ := visited_ok S h (hist Lr.2)
    unfold scalarRanks
    rw [v1]
    simp only [Res.bind]
    rw [scalarElems_ok S h hu junk hs points _ v2, ih fun y hy => hl y (by simp [hy])]
    simp only [List.map_cons, zero_add]

/-- **C48**: whatever the number of processes, the processor grid and the history of each process' element iterator, and
whatever the arrays contained before, `IGAComputeScalar` returns the sum over all elements and their quadrature points
of Jacobian times weight times integrand; the array is not changed beyond its `n` entries. -/
theorem C48_compute_scalar_partial {P : Type} (S : Setup g2 g3 colloc size procs axes axs Ls) (hist : Nat → Hist)
    (dof n : Nat) (gvec : Int → ℝ) (junk : Nat × Int → ℝ) (u : List Int → Nat → ℝ) (hu : Represents axs Ls dof gvec u)
    (heap : Nat → Nat → ℝ) (points : List Int → List (QPoint P)) (scalar : P → List ℝ → (Nat → ℝ) → Res (Nat → ℝ))
    (s : P → List ℝ → Nat → ℝ) (hs : Computes n scalar s) (arr : Nat → ℝ) :
    computeScalar colloc Ls hist dof n gvec junk heap points scalar arr = .ok fun i => if i < n then
      ((indices (axs.map (gridSize colloc))).map fun e => ((points e).map fun q =>
        s q.data (valuesOf colloc axs dof u e) i * (q.detJac * q.weight)).sum).sum else arr i := by
  unfold computeScalar
  simp only
  rw [scalarRanks_ok S hu junk hs points hist heap _ (fun Lr h => by rw [List.mem_zipIdx_iff_getElem?] at h; exact h)]
  simp only [Res.bind, List.map_map]
  congr 1
  funext i
  by_cases hi : i < n
  · simp only [if_pos hi, Function.comp_def]
    exact sum_ranks S hist _
  · simp only [if_neg hi]

/-- **C48**: two decompositions give the same numbers. -/
theorem C48_independent_partial {P : Type} {g2' : Guess2} {g3' : Guess3} {size' : Int} {procs' : List Int}
    {Ls' : List (Layout K)}
    (S : Setup g2 g3 colloc size procs axes axs Ls) (S' : Setup g2' g3' colloc size' procs' axes axs Ls')
    (hist hist' : Nat → Hist) (dof n : Nat) (gvec gvec' : Int → ℝ) (junk junk' : Nat × Int → ℝ) (u : List Int → Nat → ℝ)
    (hu : Represents axs Ls dof gvec u) (hu' : Represents axs Ls' dof gvec' u) (heap heap' : Nat → Nat → ℝ)
    (points : List Int → List (QPoint P)) (scalar : P → List ℝ → (Nat → ℝ) → Res (Nat → ℝ))
    (s : P → List ℝ → Nat → ℝ) (hs : Computes n scalar s) (arr arr' : Nat → ℝ) :
    ∃ a a', computeScalar colloc Ls hist dof n gvec junk heap points scalar arr = .ok a ∧
      computeScalar colloc Ls' hist' dof n gvec' junk' heap' points scalar arr' = .ok a' ∧ ∀ i : Nat, i < n → a i = a' i := by
  refine ⟨_, _, C48_compute_scalar_partial S hist dof n gvec junk u hu heap points scalar s hs arr,
    C48_compute_scalar_partial S' hist' dof n gvec' junk' u hu' heap' points scalar s hs arr', ?_⟩
  intro i hi
  simp only [if_pos hi]

end

/-! ### Examples -/

/-- The two axes of the examples: 6 periodic nodes, 3 nodes. -/
def exAxs : List (Axis Rat) := [(Ax.setUp exAx0).2, (Ax.setUp exAx1).2]

theorem exSetup (g2 : Guess2) (g3 : Guess3) : ∃ Ls, Setup g2 g3 false 4 [2,2] [exAx0, exAx1] exAxs Ls := by
  have hL : stage1 g2 g3 false 4 3 [2,2] [exAx0, exAx1] =
    .ok ⟨[(Ax.setUp exAx0).2, (Ax.setUp exAx1).2], [2,2], [1,1], _⟩ := rfl
  obtain ⟨Ls, h⟩ := allRanks_exists g2 g3 false 4 [2,2] _ _ 3 exAx_reached hL
  refine ⟨Ls, exAx_reached, by simp, rfl, by omega, h, ?_⟩
  intro ax h
  simp only [exAxs, List.mem_cons, List.not_mem_nil, or_false] at h
  refine ⟨fun _ => ?_, by simp⟩
  rcases h with rfl | rfl <;> decide +kernel

theorem exSetup1 (g2 : Guess2) (g3 : Guess3) : ∃ Ls, Setup g2 g3 false 1 [1,1] [exAx0, exAx1] exAxs Ls := by
  have hL : stage1 g2 g3 false 1 0 [1,1] [exAx0, exAx1] =
    .ok ⟨[(Ax.setUp exAx0).2, (Ax.setUp exAx1).2], [1,1], [0,0], _⟩ := rfl
  obtain ⟨Ls, h⟩ := allRanks_exists g2 g3 false 1 [1,1] _ _ 0 exAx_reached hL
  refine ⟨Ls, exAx_reached, by simp, rfl, by omega, h, ?_⟩
  intro ax h
  simp only [exAxs, List.mem_cons, List.not_mem_nil, or_false] at h
  refine ⟨fun _ => ?_, by simp⟩
  rcases h with rfl | rfl <;> decide +kernel

theorem exSetupC : ∃ Ls, Setup exactGuess2 exactGuess3 true 4 [2,2] [exAx0, exAx1] exAxs Ls := by
  obtain ⟨L, hL, -, -⟩ := summary_ok (x := stage1 exactGuess2 exactGuess3 true 4 3 [2,2] [exAx0, exAx1])
    (d := [⟨6, 3, 3, 8, 4, 4, 3, 5, 1, 6, 3, 3, 2, 5⟩, ⟨3, 2, 1, 3, 2, 1, 1, 2, 0, 3, 2, 1, 1, 2⟩])
    (a := [(2, 10, 6), (1, 4, 3)]) (by decide +kernel)
  obtain ⟨Ls, h⟩ := allRanks_exists exactGuess2 exactGuess3 true 4 [2,2] _ _ 3 exAx_reached hL
  refine ⟨Ls, exAx_reached, by simp, rfl, by omega, h, ?_⟩
  intro ax h
  simp only [exAxs, List.mem_cons, List.not_mem_nil, or_false] at h
  refine ⟨by simp, fun _ => ?_⟩
  rcases h with rfl | rfl <;> decide +kernel

/-- Every nodal field is stored by some global vector. -/
theorem represents_exists {K : Type} [Field K] [LinearOrder K] [IsStrictOrderedRing K] {g2 : Guess2} {g3 : Guess3}
    {colloc : Bool} {size : Int} {procs : List Int} {axes axs : List (Axis K)} {Ls : List (Layout K)}
    {V : Type} [Zero V] (S : Setup g2 g3 colloc size procs axes axs Ls) (dof : Nat) (u : List Int → Nat → V) :
    ∃ gvec, Represents axs Ls dof gvec u := by
  classical
  obtain ⟨D, hp⟩ := S.grid
  refine ⟨fun k => if h : ∃ x, ∃ c : Nat, InBox (axs.map Axis.nnp) x ∧ c < dof ∧
    k = (dof:Int) * appToPetsc (world (appWorld Ls)) (flat (axs.map Axis.nnp) x) + c then
      u h.choose h.choose_spec.choose else 0, ?_⟩
  intro x c hx hc
  have h : ∃ y, ∃ d : Nat, InBox (axs.map Axis.nnp) y ∧ d < dof ∧
    (dof:Int) * appToPetsc (world (appWorld Ls)) (flat (axs.map Axis.nnp) x) + c =
    (dof:Int) * appToPetsc (world (appWorld Ls)) (flat (axs.map Axis.nnp) y) + d := ⟨x, c, hx, hc, rfl⟩
  simp only [dif_pos h]
  obtain ⟨h1, h2, h3⟩ := h.choose_spec.choose_spec
  obtain ⟨h4, h5⟩ := (index_eq hc h2).1 h3
  have := (C26_global_numbering _ _ D hp).2.1 _ _ hx h1 h4
  exact (congrArg₂ u this h5).symm

/-- The hypotheses of C51 and C48 hold for the four-process and the one-process decomposition of the example, with any
field, so they assemble the same load vector; the element integrals are all `1`, and node `(0,1)` gets the number of
(element, local basis function) pairs that meet it: `3` elements of the periodic direction times `2` of the other. -/
example (g2 : Guess2) (g3 : Guess3) (u : List Int → Nat → ℝ) (hist hist' : Nat → Hist) (junk : Nat × Int → ℝ) :
    ∃ Ls Ls' gvec gvec' v v', Setup g2 g3 false 4 [2,2] [exAx0, exAx1] exAxs Ls ∧
      Setup g2 g3 false 1 [1,1] [exAx0, exAx1] exAxs Ls' ∧ Represents exAxs Ls 1 gvec u ∧ Represents exAxs Ls' 1 gvec' u ∧
      computeVec false Ls hist 1 gvec junk (fun _ _ _ => .ok fun _ => (1:ℝ)) = .ok v ∧
      computeVec false Ls' hist' 1 gvec' junk (fun _ _ _ => .ok fun _ => (1:ℝ)) = .ok v' ∧
      v (appToPetsc (world (appWorld Ls)) (flat [6,3] [0,1])) = 6 ∧
      v' (appToPetsc (world (appWorld Ls')) (flat [6,3] [0,1])) = 6 := by
  obtain ⟨Ls, S⟩ := exSetup g2 g3
  obtain ⟨Ls', S'⟩ := exSetup1 g2 g3
  obtain ⟨gvec, hu⟩ := represents_exists S 1 u
  obtain ⟨gvec', hu'⟩ := represents_exists S' 1 u
  obtain ⟨v, h1, h2⟩ := C51_vector_partial S hist 1 gvec junk u hu (fun _ _ _ => .ok fun _ => (1:ℝ)) (fun _ _ => (1:ℝ)) (fun _ _ _ => ⟨_, rfl, fun _ _ => rfl⟩)
  obtain ⟨v', h1', h2'⟩ := C51_vector_partial S' hist' 1 gvec' junk u hu' (fun _ _ _ => .ok fun _ => (1:ℝ)) (fun _ _ => (1:ℝ)) (fun _ _ _ => ⟨_, rfl, fun _ _ => rfl⟩)
  have e1 : exAxs.map Axis.nnp = [6,3] := by decide +kernel
  have hb : InBox (exAxs.map Axis.nnp) [0,1] := by rw [e1]; exact .cons (by omega) (.cons (by omega) .nil)
  have H := h2 [0,1] 0 hb (by omega)
  have H' := h2' [0,1] 0 hb (by omega)
  have count : ∀ (l : List (List Int)) (p : List Int → List Int → Prop) [∀ a b, Decidable (p a b)] (m : List (List Int)),
      (l.map fun e => (m.map fun t => if p e t then (1:ℝ) else 0).sum).sum =
      (((l.map fun e => (m.map fun t => if p e t then (1:Nat) else 0).sum).sum : Nat) : ℝ) := by
    intro l p _ m
    induction l with
    | nil => simp
    | cons a l ih =>
      rw [List.map_cons, List.sum_cons, ih, List.map_cons, List.sum_cons, Nat.cast_add]
      congr 1
      clear ih
      induction m with
      | nil => simp
      | cons b m ih => rw [List.map_cons, List.sum_cons, ih, List.map_cons, List.sum_cons, Nat.cast_add]; split <;> simp
  have e2 : ((indices (exAxs.map Axis.nel)).map fun e => ((indices (nens exAxs)).map fun t =>
        if nodeOf false exAxs e t = [0,1] then (1:Nat) else 0).sum).sum = 6 := by decide +kernel
  have c := count (indices (exAxs.map Axis.nel)) (fun e t => nodeOf false exAxs e t = [0,1]) (indices (nens exAxs))
  rw [e2] at c
  simp only [e1] at H H'
  refine ⟨Ls, Ls', gvec, gvec', v, v', S, S', hu, hu', h1, h1', ?_, ?_⟩
  · simpa using H.trans c
  · simpa using H'.trans c

/-- The hypotheses of the collocation theorems. -/
example (u : List Int → Nat → ℝ) : ∃ Ls gvec, Setup exactGuess2 exactGuess3 true 4 [2,2] [exAx0, exAx1] exAxs Ls ∧
    Represents exAxs Ls 2 gvec u := by
  obtain ⟨Ls, S⟩ := exSetupC
  obtain ⟨gvec, hu⟩ := represents_exists S 2 u
  exact ⟨Ls, gvec, S, hu⟩

/-- The hypothesis on the callback of C48: one that accumulates into the array it gets. -/
example : Computes 2 (fun (p : ℝ) (U : List ℝ) w => .ok fun i => w i + p * U.headD 0 + i) (fun p U i => p * U.headD 0 + i) := by
  intro p U w hw
  exact ⟨_, rfl, fun i hi => by simp only [hw i hi]; ring⟩

end PetIGA.Asm
