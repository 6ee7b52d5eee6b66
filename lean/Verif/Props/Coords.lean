import Verif.Model.Coords
import Verif.Props.Probe
import Verif.Props.Lagrange
import Verif.Props.BSpline
import Mathlib.Logic.Equiv.List
/-! Property theorems about the vector of node coordinates (C50). -/
set_option linter.unusedSectionVars false
namespace PetIGA.Crd
open PetIGA.Spec PetIGA.Part PetIGA.Lay PetIGA.Ax PetIGA.Grid PetIGA.Asm PetIGA.Blk PetIGA.Quad PetIGA.Prb Finset

variable {K : Type} [Field K] [LinearOrder K] [IsStrictOrderedRing K]

/-! ### Specification -/

/-- The coordinate `u` of function number `i` of a direction: the mean of its `p` inner knots (Greville point), or, for
the spectral basis, point `a` of the `p+1` Lobatto points of element `e` if `i = e p + a`. -/
def NodePoint (ax : Axis K) (btype : BasisType) (i : Int) (u : K) : Prop :=
  (btype ≠ .spectral → (ax.p : K) * u = ∑ j ∈ range ax.p.toNat, ax.U (i + 1 + (j:Int))) ∧
  (btype = .spectral → ∃ e a k : Int, 0 ≤ e ∧ e < ax.nel ∧ 0 ≤ a ∧ a ≤ ax.p ∧ i = e * ax.p + a ∧ ax.span[e.toNat]? = some k ∧
    u = Lag.gaussLobatto (ax.p.toNat + 1) (ax.U k) (ax.U (k+1)) a)

/-- The vector with the given local arrays. -/
def vec [Zero K] (outs : List (List K)) (k : Int) : K := outs.flatten.getD k.toNat 0

/-! ### One direction -/

theorem sp_step {ax : Axis K} (h : PreWF ax) {e : Int} (h0 : 0 ≤ e) (h1 : e + 1 < ax.nel) : sp ax (e+1) ≤ sp ax e + ax.p := by
  obtain ⟨a1, a2, a3⟩ := sp_elem h h0 (by omega)
  obtain ⟨b1, b2, b3⟩ := sp_elem h (i := e+1) (by omega) h1
  have hp := h.legal.degree
  have hm := h.legal.enough
  have hlt := sp_lt h h0 (show e < e + 1 by omega) h1
  have flat : ∀ n : Nat, sp ax e + 1 + n ≤ sp ax (e+1) → ax.U (sp ax e + 1) = ax.U (sp ax e + 1 + n) := by
    intro n
    induction n with
    | zero => intro _; simp
    | succ n ih =>
      intro hn
      push_cast at hn ⊢
      rw [ih (by omega)]
      have hs := h.legal.sorted (sp ax e + 1 + n) (by omega) (by omega)
      rcases lt_or_eq_of_le hs with hl | hl
      · obtain ⟨i, i0, i1, i2⟩ := mem_sp h (k := sp ax e + 1 + n) ⟨by omega, by omega, hl⟩
        exfalso
        rcases lt_trichotomy i e with c | c | c
        · have := sp_lt h i0 c (by omega); omega
        · subst c; omega
        · have := sp_le h (i := e+1) (j := i) (by omega) (by omega) i1; omega
      · rw [hl]; congr 1; ring
  by_contra hn
  have := h.legal.mult (sp ax e + 1) (by omega) (by omega)
  have e1 := flat (sp ax (e+1) - sp ax e - 1).toNat (by omega)
  have e2 := sorted_mono h.legal.sorted (i := sp ax e + 1 + ax.p) (j := sp ax (e+1)) (by omega) (by omega) (by omega)
  rw [show sp ax e + 1 + ((sp ax (e+1) - sp ax e - 1).toNat : Int) = sp ax (e+1) by omega] at e1
  rw [e1] at this
  exact absurd (lt_of_lt_of_le this e2) (lt_irrefl _)

/-- There are at most `nel p + 1` functions. -/
theorem functions_le {ax : Axis K} (h : PreWF ax) (hc : ax.U ax.p < ax.U (ax.p+1) ∧ ax.U (ax.m-ax.p-1) < ax.U (ax.m-ax.p)) :
    1 ≤ ax.nel ∧ ax.m - ax.p ≤ ax.nel * ax.p + 1 := by
  have hp := h.legal.degree
  have hm := h.legal.enough
  obtain ⟨i, i0, i1, -⟩ := mem_sp h (k := ax.p) ⟨le_refl _, by omega, hc.1⟩
  have hn : 1 ≤ ax.nel := by omega
  refine ⟨hn, ?_⟩
  have key : ∀ n : Nat, (n : Int) < ax.nel → sp ax n ≤ ax.p + n * ax.p := by
    intro n
    induction n with
    | zero => intro _; have := sp_first h hn hc.1; simp [this]
    | succ n ih =>
      intro hl
      push_cast at hl ⊢
      have a := sp_step h (e := n) (by omega) hl
      have b := ih (by omega)
      rw [add_mul, one_mul]
      omega
  have := key (ax.nel - 1).toNat (by omega)
  rw [show (((ax.nel - 1).toNat : Nat) : Int) = ax.nel - 1 by omega, sp_last h hn hc.2] at this
  have e : (ax.nel - 1) * ax.p = ax.nel * ax.p - ax.p := by ring
  omega

theorem grevSum_eq (i : Int) (U : Int → K) (n : Nat) : grevSum i U n = ∑ j ∈ range n, U (i + 1 + (j:Int)) := by
  induction n with
  | zero => rfl
  | succ n ih =>
    rw [sum_range_succ, ← ih]
    show grevSum i U n + U (i + n + 1) = _
    congr 2
    ring

/-- The point of every function of a direction is defined. -/
theorem computePoint_ok (huge : K) {ax : Axis K} (h : PreWF ax) (hc : ax.U ax.p < ax.U (ax.p+1) ∧ ax.U (ax.m-ax.p-1) < ax.U (ax.m-ax.p))
    (btype : BasisType) (hs : btype = .spectral → ax.p ≤ 16) {i : Int} (h0 : 0 ≤ i) (h1 : i < ax.m - ax.p) :
    ∃ u, computePoint huge i ax btype = .ok u ∧ NodePoint ax btype i u := by
  have hp := h.legal.degree
  obtain ⟨n1, n2⟩ := functions_le h hc
  unfold computePoint
  rw [if_neg (by omega)]
  by_cases hb : btype = .spectral
  · rw [if_pos hb, if_neg (by have := hs hb; omega)]
    have d1 : Int.tdiv i ax.p = i / ax.p := Int.tdiv_eq_ediv_of_nonneg h0
    have d2 : Int.tmod i ax.p = i % ax.p := Int.tmod_eq_emod_of_nonneg h0
    rw [d1, d2]
    dsimp only
    have q0 : 0 ≤ i / ax.p := Int.ediv_nonneg h0 (by omega)
    have r0 := Int.emod_nonneg i (show ax.p ≠ 0 by omega)
    have r1 := Int.emod_lt_of_pos i (show 0 < ax.p by omega)
    have e := Int.mul_ediv_add_emod i ax.p
    have e' : i / ax.p * ax.p + i % ax.p = i := by rw [mul_comm]; exact e
    have hle : i / ax.p ≤ ax.nel := by
      by_contra hgt
      have : (ax.nel + 1) * ax.p ≤ i / ax.p * ax.p := Int.mul_le_mul_of_nonneg_right (by omega) (by omega)
      rw [add_mul, one_mul] at this
      omega
    have hlen := h.nel
    by_cases hq : i / ax.p = ax.nel
    · rw [if_pos hq]
      dsimp only
      rw [if_neg (by omega)]
      have hi : (i / ax.p - 1).toNat < ax.span.length := by omega
      rw [List.getElem?_eq_getElem hi]
      refine ⟨_, rfl, fun hn => absurd hb hn, fun _ => ⟨i / ax.p - 1, ax.p, ax.span[(i / ax.p - 1).toNat], by omega, by omega, by omega, le_refl _, ?_, ?_, rfl⟩⟩
      · have hr : i % ax.p = 0 := by
          rw [hq] at e'
          omega
        rw [sub_mul, one_mul]
        omega
      · exact List.getElem?_eq_getElem hi
    · rw [if_neg hq]
      dsimp only
      rw [if_neg (by omega)]
      have hi : (i / ax.p).toNat < ax.span.length := by omega
      rw [List.getElem?_eq_getElem hi]
      exact ⟨_, rfl, fun hn => absurd hb hn, fun _ => ⟨i / ax.p, i % ax.p, ax.span[(i / ax.p).toNat], by omega, by omega, r0, by omega, e'.symm,
        List.getElem?_eq_getElem hi, rfl⟩⟩
  · rw [if_neg hb]
    refine ⟨_, rfl, fun _ => ?_, fun hn => absurd hn hb⟩
    unfold greville
    rw [if_pos (by omega), grevSum_eq]
    have : (ax.p : K) ≠ 0 := by
      have : ax.p ≠ 0 := by omega
      exact_mod_cast this
    field_simp

/-! ### The vector -/

variable {g2 : Guess2} {g3 : Guess3} {colloc : Bool} {size : Int} {procs : List Int} {axes axs : List (Axis K)}
  {Ls : List (Layout K)}

theorem flatMap_get {α V : Type} (dof : Nat) (f : α → Nat → V) : ∀ (l : List α) (n c : Nat) (a : α), l[n]? = some a → c < dof →
    (l.flatMap fun y => (List.range dof).map (f y))[n * dof + c]? = some (f a c)
  | [], n, c, a, h, _ => by simp at h
  | b :: l, n, c, a, h, hc => by
    rw [List.flatMap_cons]
    cases n with
    | zero =>
      simp only [List.getElem?_cons_zero, Option.some.injEq] at h
      subst h
      rw [List.getElem?_append_left (by simp [hc])]
      simp [hc]
    | succ n =>
      rw [List.getElem?_append_right (by simp; nlinarith)]
      simp only [List.length_map, List.length_range]
      rw [show (n+1) * dof + c - dof = n * dof + c by rw [add_mul, one_mul]; omega]
      exact flatMap_get dof f l n c a (by simpa using h) hc

theorem flatMap_len {α V : Type} (dof : Nat) (f : α → Nat → V) : ∀ (l : List α),
    (l.flatMap fun y => (List.range dof).map (f y)).length = l.length * dof
  | [] => by simp
  | b :: l => by
    rw [List.flatMap_cons, List.length_append, flatMap_len dof f l]
    simp [add_mul, add_comm]

theorem flatten_get {V : Type} : ∀ (outs : List (List V)) (r : Nat) (o : List V) (j : Nat), outs[r]? = some o → j < o.length →
    outs.flatten[(outs.take r).flatten.length + j]? = o[j]?
  | [], r, o, j, h, _ => by simp at h
  | x :: outs, r, o, j, h, hj => by
    cases r with
    | zero =>
      simp only [List.getElem?_cons_zero, Option.some.injEq] at h
      subst h
      simp only [List.take_zero, List.flatten_nil, List.length_nil, zero_add, List.flatten_cons]
      exact List.getElem?_append_left hj
    | succ r =>
      simp only [List.take_succ_cons, List.flatten_cons, List.length_append]
      rw [List.getElem?_append_right (by omega), show x.length + (List.take r outs).flatten.length + j - x.length = (List.take r outs).flatten.length + j by omega]
      exact flatten_get outs r o j (by simpa using h) hj

/-- A vector whose local arrays list the values at the owned nodes stores the nodal field. -/
theorem represents_local (S : Setup g2 g3 colloc size procs axes axs Ls) (dof : Nat) (f : List Int → Nat → K)
    (outs : List (List K)) (hout : outs = Ls.map fun L => (box (L.dir.map fun d => (d.nodeLstart, d.nodeLwidth))).flatMap
      fun y => (List.range dof).map (f y)) :
    Represents axs Ls dof (vec outs) f := by
  obtain ⟨D, hp⟩ := S.grid
  intro x c hx hc
  set W := world (appWorld Ls) with hW
  obtain ⟨r, ⟨h1, h2⟩, -⟩ := D.part.owner x hx
  obtain ⟨g, hg⟩ := get_of_lt h1
  rw [(own_get hg).1, (own_get hg).2.1] at h2
  obtain ⟨e, f0, f1⟩ := glob_own D hg h2
  have hLg : ∀ (r : Nat) g, W[r]? = some g → ∃ L, Ls[r]? = some L ∧ L.dir.map gdir = g := by
    intro r g h
    rw [hW] at h
    unfold world appWorld at h
    rw [List.getElem?_map, List.getElem?_map] at h
    cases hL : Ls[r]? with
    | none => rw [hL] at h; simp at h
    | some L =>
      rw [hL] at h
      simp only [Option.map_some, Option.some.injEq, List.map_map] at h
      exact ⟨L, rfl, h⟩
  have hbox : ∀ L : Layout K, (box (L.dir.map fun d => (d.nodeLstart, d.nodeLwidth))) = box (lbox (L.dir.map gdir)) := by
    intro L
    unfold lbox gdir
    rw [List.map_map]
    rfl
  have hlenbox : ∀ (r : Nat) g, W[r]? = some g → ((box (lbox g)).length : Int) = nlocal g := by
    intro r g hg
    rw [length_box, lbox_snd, nlocal_eq]
    intro p hp
    have := (blocks_pos (own_blocks D hg)).1
    unfold lbox at hp
    rw [List.mem_map] at hp
    obtain ⟨d, hd, rfl⟩ := hp
    have := this d.lwidth (List.mem_map.2 ⟨d, hd, rfl⟩)
    omega
  have hoff : ∀ r : Nat, r ≤ W.length → (((outs.take r).flatten.length : Nat) : Int) = dof * offset W r := by
    intro r
    induction r with
    | zero => intro _; simp [offset]
    | succ r ih =>
      intro hr
      obtain ⟨g, hg⟩ := get_of_lt (W := W) (r := r) (by omega)
      obtain ⟨L, hL, rfl⟩ := hLg r g hg
      rw [offset_succ hg, mul_add, ← ih (by omega), List.take_add_one, hout, List.getElem?_map, hL]
      simp only [Option.map_some, Option.toList_some, List.flatten_append, List.flatten_cons, List.flatten_nil, List.append_nil,
        List.length_append, Nat.cast_add]
      congr 1
      rw [flatMap_len, hbox, ← hlenbox r _ hg]
      push_cast
      ring
  obtain ⟨L, hL, rfl⟩ := hLg r g hg
  have ho : outs[r]? = some ((box (lbox (L.dir.map gdir))).flatMap fun y => (List.range dof).map (f y)) := by
    rw [hout, List.getElem?_map, hL, ← hbox]
    rfl
  have hb := box_get (lbox (L.dir.map gdir)) x (by rw [lbox_fst, lbox_snd]; exact h2)
  rw [lbox_fst, lbox_snd] at hb
  have hget := flatMap_get dof f _ _ c x hb.2 hc
  have hlt := (List.getElem?_eq_some_iff.1 hget).1
  have hfl := flatten_get outs r _ _ ho hlt
  unfold vec
  rw [List.getD_eq_getElem?_getD, e]
  rw [show ((dof:Int) * (offset W r + flat (List.map GDir.lwidth (L.dir.map gdir)) (rel (List.map GDir.lstart (L.dir.map gdir)) x)) + (c:Int)).toNat =
      (outs.take r).flatten.length + ((flat (List.map GDir.lwidth (L.dir.map gdir)) (rel (List.map GDir.lstart (L.dir.map gdir)) x)).toNat * dof + c) by
    have := hoff r (by omega)
    have e2 : (((flat (List.map GDir.lwidth (L.dir.map gdir)) (rel (List.map GDir.lstart (L.dir.map gdir)) x)).toNat * dof : Nat) : Int) =
      dof * flat (List.map GDir.lwidth (L.dir.map gdir)) (rel (List.map GDir.lstart (L.dir.map gdir)) x) := by
      push_cast
      rw [Int.toNat_of_nonneg f0]
      ring
    rw [mul_add]
    omega]
  rw [hfl, hget]
  rfl

/-- The value of `ComputePoint`. -/
def ptOf (huge : K) (ax : Axis K) (bt : BasisType) (i : Int) : K :=
  match computePoint huge i ax bt with
  | .ok u => u
  | _ => 0

/-- The points of a node with function numbers `y`. -/
def ptsOf (huge : K) : List (Axis K) → List BasisType → List Int → List K
  | ax :: axs, bt :: bts, i :: is => ptOf huge ax bt i :: ptsOf huge axs bts is
  | _, _, _ => []

/-- Conditions on a direction: the end intervals are not empty, and the degree of a spectral direction is at most 16. -/
def Regular (ax : Axis K) (bt : BasisType) : Prop :=
  (ax.U ax.p < ax.U (ax.p+1) ∧ ax.U (ax.m-ax.p-1) < ax.U (ax.m-ax.p)) ∧ (bt = .spectral → ax.p ≤ 16)

theorem pt_ok (huge : K) {ax : Axis K} {bt : BasisType} (h : WF ax) (hr : Regular ax bt) {i : Int} (h0 : 0 ≤ i) (h1 : i < ax.m - ax.p) :
    computePoint huge i ax bt = .ok (ptOf huge ax bt i) ∧ NodePoint ax bt i (ptOf huge ax bt i) := by
  obtain ⟨u, a, b⟩ := computePoint_ok huge h.toPreWF hr.1 bt hr.2 h0 h1
  unfold ptOf
  rw [a]
  exact ⟨rfl, b⟩

/-- The function numbers of a node. -/
def numberOf (colloc : Bool) (axs : List (Axis K)) (x : List Int) : List Int := List.zipWith (fun (ax : Axis K) i => i + shiftOf colloc ax) axs x

theorem number_range {ax : Axis K} (h : WF ax) {i : Int} (h0 : 0 ≤ i) (h1 : i < ax.nnp) :
    0 ≤ i + shiftOf colloc ax ∧ i + shiftOf colloc ax < ax.m - ax.p := by
  obtain ⟨n1, n2, n3, n4⟩ := nnp_bounds h
  unfold shiftOf
  split_ifs <;> omega

theorem nodePoint_ok (huge : K) {axs : List (Axis K)} {bts : List BasisType} (hr : List.Forall₂ Regular axs bts) (hw : ∀ ax ∈ axs, WF ax) :
    ∀ {x shift : List Int}, InBox (axs.map Axis.nnp) x → shift = axs.map (shiftOf colloc) →
    nodePoint huge axs bts shift x = .ok (ptsOf huge axs bts (numberOf colloc axs x)) := by
  induction hr with
  | nil => intro x shift hx hs; cases hx; rfl
  | @cons ax bt axs bts h1 h2 ih =>
    intro x shift hx hs
    cases hx with
    | @cons n i ns is b1 b2 =>
      subst hs
      obtain ⟨r0, r1⟩ := number_range (colloc := colloc) (hw ax (by simp)) b1.1 b1.2
      have := ih (fun a ha => hw a (by simp [ha])) b2 rfl
      unfold nodePoint at this ⊢
      simp only [List.map_cons, List.zip_cons_cons, List.zipWith_cons_cons, Blk.sequence]
      rw [(pt_ok huge (hw ax (by simp)) h1 r0 r1).1, this]
      rfl

theorem ptsOf_spec (huge : K) {axs : List (Axis K)} {bts : List BasisType} (hr : List.Forall₂ Regular axs bts) (hw : ∀ ax ∈ axs, WF ax) :
    ∀ {x : List Int}, InBox (axs.map Axis.nnp) x → (∀ c ax bt i, axs[c]? = some ax → bts[c]? = some bt → x[c]? = some i →
      NodePoint ax bt (i + shiftOf colloc ax) ((ptsOf huge axs bts (numberOf colloc axs x)).getD c 0)) ∧
      (∀ c, axs.length ≤ c → (ptsOf huge axs bts (numberOf colloc axs x)).getD c 0 = 0) := by
  induction hr with
  | nil => intro x hx; exact ⟨fun c ax bt i h => by simp at h, fun c _ => by simp [ptsOf]⟩
  | @cons ax bt axs bts h1 h2 ih =>
    intro x hx
    cases hx with
    | @cons n i ns is b1 b2 =>
      obtain ⟨r0, r1⟩ := number_range (colloc := colloc) (hw ax (by simp)) b1.1 b1.2
      obtain ⟨i1, i2⟩ := ih (fun a ha => hw a (by simp [ha])) b2
      constructor
      · intro c ax' bt' j e1 e2 e3
        cases c with
        | zero =>
          simp only [List.getElem?_cons_zero, Option.some.injEq] at e1 e2 e3
          subst e1 e2 e3
          exact (pt_ok huge (hw ax (by simp)) h1 r0 r1).2
        | succ c =>
          simp only [List.getElem?_cons_succ] at e1 e2 e3
          exact i1 c ax' bt' j e1 e2 e3
      · intro c hc
        cases c with
        | zero => simp at hc
        | succ c => exact i2 c (by simpa using hc)

theorem dir_mem {R : Axis K → Dir → Prop} {axs : List (Axis K)} {ds : List Dir} (h : List.Forall₂ R axs ds) {d : Dir} (hd : d ∈ ds) :
    ∃ ax, R ax d := by
  induction h with
  | nil => simp at hd
  | cons a b ih =>
    rcases List.mem_cons.1 hd with rfl | h
    · exact ⟨_, a⟩
    · exact ih h

/-- **C50** without a geometry.  After any successful set-up the call succeeds, and the vector stores, for every node
of the grid and in the numbering of the other vectors, its Greville or Lobatto points; further coordinates are zero. -/
theorem C50_parametric (S : Setup g2 g3 colloc size procs axes axs Ls) (huge : K) (types : List BasisType)
    (hr : List.Forall₂ Regular axs types) (geometry : Nat) (xyz : Nat → Option (List K)) (hg : geometry = 0 ∨ ∀ r, xyz r = none) :
    ∃ outs u, createCoordinates huge types geometry Ls xyz = .ok outs ∧
      outs.map List.length = Ls.map (fun L => (prod (L.dir.map Dir.nodeLwidth)).toNat * nsdOf axs.length geometry) ∧
      Represents axs Ls (nsdOf axs.length geometry) (vec outs) u ∧
      ∀ x, InBox (axs.map Axis.nnp) x →
        (∀ c ax bt i, axs[c]? = some ax → types[c]? = some bt → x[c]? = some i → NodePoint ax bt (i + shiftOf colloc ax) (u x c)) ∧
        (∀ c, axs.length ≤ c → u x c = 0) := by
  refine ⟨_, fun x c => (ptsOf huge axs types (numberOf colloc axs x)).getD c 0, ?_, ?_,
    represents_local S (nsdOf axs.length geometry) _ _ rfl, fun x hx => ptsOf_spec huge hr (setup_wf S) hx⟩
  · unfold createCoordinates
    have : ∀ Lr ∈ Ls.zipIdx, onRank huge types geometry Lr.1 (xyz Lr.2) =
        .ok ((fun Lr : Layout K × Nat => (box (Lr.1.dir.map fun d => (d.nodeLstart, d.nodeLwidth))).flatMap
      fun y => (List.range (nsdOf axs.length geometry)).map fun c => (ptsOf huge axs types (numberOf colloc axs y)).getD c 0) Lr) := by
      rintro ⟨L, r⟩ hL
      rw [List.mem_zipIdx_iff_getElem?] at hL
      dsimp only at hL ⊢
      have e : onRank huge types geometry L (xyz r) = parametric huge types (nsdOf L.dir.length geometry) L := by
        rcases hg with rfl | h
        · rfl
        · rw [h r]; cases geometry <;> rfl
      rw [e]
      have hd := setup_dirs S hL (R := DirW colloc) (fun ax P r a b c d e f => dirW a b c d e f)
      obtain ⟨-, hax, -, -⟩ := S.get hL
      unfold parametric
      rw [hax, ← hd.length_eq]
      rw [sequence_ok _ (fun y => (List.range (nsdOf axs.length geometry)).map fun c => (ptsOf huge axs types (numberOf colloc axs y)).getD c 0)]
      · dsimp only [Res.bind]
        rw [← List.flatMap_def]
      · intro y hy
        rw [mem_box] at hy
        have hy' : InBox (axs.map Axis.nnp) y ∧ L.dir.map Dir.nodeShift = axs.map (shiftOf colloc) := by
          generalize L.dir = ds at hd hy
          clear * - hd hy
          induction hd generalizing y with
          | nil => cases hy; exact ⟨.nil, rfl⟩
          | cons a b ih =>
            cases hy with
            | cons c1 c2 =>
              obtain ⟨q1, q2⟩ := ih _ c2
              have := a.own
              refine ⟨.cons (by dsimp only at c1; omega) q1, ?_⟩
              rw [List.map_cons, List.map_cons, q2, a.ok.ok.shift]
              rfl
        rw [nodePoint_ok huge hr (setup_wf S) hy'.1 hy'.2]
        rfl
    rw [sequence_ok _ _ _ this]
    congr 1
    rw [show (fun Lr : Layout K × Nat => (box (Lr.1.dir.map fun d => (d.nodeLstart, d.nodeLwidth))).flatMap
      fun y => (List.range (nsdOf axs.length geometry)).map fun c => (ptsOf huge axs types (numberOf colloc axs y)).getD c 0) =
      (fun L : Layout K => (box (L.dir.map fun d => (d.nodeLstart, d.nodeLwidth))).flatMap
      fun y => (List.range (nsdOf axs.length geometry)).map fun c => (ptsOf huge axs types (numberOf colloc axs y)).getD c 0) ∘ Prod.fst from rfl,
      ← List.map_map, List.zipIdx_map_fst]
  · rw [List.map_map]
    apply List.map_congr_left
    intro L hL
    obtain ⟨r, hr'⟩ := List.getElem?_of_mem hL
    have hd := setup_dirs S hr' (R := DirW colloc) (fun ax P r a b c d e f => dirW a b c d e f)
    dsimp only [Function.comp]
    rw [flatMap_len]
    congr 1
    have := length_box (L.dir.map fun d => (d.nodeLstart, d.nodeLwidth)) (by
      intro p hp
      rw [List.mem_map] at hp
      obtain ⟨d, hdm, rfl⟩ := hp
      obtain ⟨ax, h⟩ := dir_mem hd hdm
      have := h.own
      dsimp only
      omega)
    rw [List.map_map] at this
    have e : (Prod.snd ∘ fun d : Dir => (d.nodeLstart, d.nodeLwidth)) = Dir.nodeLwidth := rfl
    rw [e] at this
    omega

/-! ### With control points -/

theorem filter_range (a w n : Nat) (h : a + w ≤ n) :
    (List.range n).filter (fun k => decide (a ≤ k ∧ k < a + w)) = (List.range w).map (a + ·) := by
  obtain ⟨c, rfl⟩ := Nat.exists_eq_add_of_le h
  rw [List.range_add, List.range_add, List.filter_append, List.filter_append]
  have e1 : (List.range a).filter (fun k => decide (a ≤ k ∧ k < a + w)) = [] := by
    rw [List.filter_eq_nil_iff]
    intro k hk
    rw [List.mem_range] at hk
    simp only [decide_eq_true_eq]
    omega
  have e2 : ((List.range w).map (a + ·)).filter (fun k => decide (a ≤ k ∧ k < a + w)) = (List.range w).map (a + ·) := by
    rw [List.filter_eq_self]
    intro k hk
    rw [List.mem_map] at hk
    obtain ⟨j, hj, rfl⟩ := hk
    rw [List.mem_range] at hj
    simp only [decide_eq_true_eq]
    omega
  have e3 : ((List.range c).map (a + w + ·)).filter (fun k => decide (a ≤ k ∧ k < a + w)) = [] := by
    rw [List.filter_eq_nil_iff]
    intro k hk
    rw [List.mem_map] at hk
    obtain ⟨j, hj, rfl⟩ := hk
    simp only [decide_eq_true_eq]
    omega
  rw [e1, e2, e3, List.nil_append, List.append_nil]

theorem flatMap_if {A B : Type} (l : List A) (p : A → Bool) (f g : A → List B) (h : ∀ a ∈ l, g a = if p a then f a else []) :
    l.flatMap g = (l.filter p).flatMap f := by
  induction l with
  | nil => rfl
  | cons a l ih =>
    rw [List.flatMap_cons, h a (by simp), ih (fun b hb => h b (by simp [hb])), List.filter_cons]
    by_cases hp : p a <;> simp [hp]

/-- The owned indices are met in the order of the owned box. -/
theorem filter_box : ∀ (ds : List Dir), (∀ d ∈ ds, d.nodeGstart ≤ d.nodeLstart ∧ d.nodeLstart + d.nodeLwidth ≤ d.nodeGstart + d.nodeGwidth ∧ 0 ≤ d.nodeLwidth) →
    (box (ds.map fun d => (d.nodeGstart, d.nodeGwidth))).filter (inside ds) = box (ds.map fun d => (d.nodeLstart, d.nodeLwidth))
  | [], _ => by simp [box, inside]
  | d :: ds, h => by
    have ih := filter_box ds (fun e he => h e (by simp [he]))
    obtain ⟨h1, h2, h3⟩ := h d (by simp)
    simp only [List.map_cons, box]
    rw [List.filter_flatMap, ← ih]
    apply flatMap_if
    intro is _
    rw [List.filter_map]
    have e : (inside (d :: ds) ∘ fun k : Nat => (d.nodeGstart + (k:Int)) :: is) =
        fun k : Nat => (decide ((d.nodeLstart - d.nodeGstart).toNat ≤ k ∧ k < (d.nodeLstart - d.nodeGstart).toNat + d.nodeLwidth.toNat) && inside ds is) := by
      funext k
      simp only [Function.comp, inside, List.zipWith_cons_cons, List.all_cons, id]
      congr 1
      rw [decide_eq_decide]
      omega
    rw [e]
    by_cases hi : inside ds is = true
    · simp only [hi, Bool.and_true, if_true]
      rw [filter_range _ _ _ (by omega), List.map_map]
      apply List.map_congr_left
      intro k _
      simp only [Function.comp]
      congr 1
      push_cast
      omega
    · simp only [Bool.not_eq_true] at hi
      simp [hi]

theorem zipIdx_box (l : List (Int × Int)) : (box l).zipIdx = (box l).map fun y => (y, (pos l y).toNat) := by
  apply List.ext_getElem?
  intro k
  rw [List.getElem?_zipIdx, List.getElem?_map]
  cases h : (box l)[k]? with
  | none => rfl
  | some y =>
    have := pos_of_get h
    simp only [Option.map_some, Option.some.injEq, Prod.mk.injEq, true_and]
    omega

/-- What one process writes: at the owned node at position `pos` of its ghosted box, the entries `pos`, …, `pos+nsd-1`
of the array of control points. -/
theorem controls_ok {axs : List (Axis K)} {L : Layout K} (hd : List.Forall₂ (DirW colloc) axs L.dir) (nsd : Nat) (arr : List K)
    (hlen : ((prod (L.dir.map Dir.nodeGwidth)).toNat * nsd) ≤ arr.length) :
    controls nsd L arr = .ok ((box (L.dir.map fun d => (d.nodeLstart, d.nodeLwidth))).flatMap fun y =>
      (List.range nsd).map fun c => arr.getD ((pos (L.dir.map fun d => (d.nodeGstart, d.nodeGwidth)) y).toNat + c) 0) := by
  have hin : ∀ d ∈ L.dir, d.nodeGstart ≤ d.nodeLstart ∧ d.nodeLstart + d.nodeLwidth ≤ d.nodeGstart + d.nodeGwidth ∧ 0 ≤ d.nodeLwidth := by
    intro d hdm
    obtain ⟨ax, h⟩ := dir_mem hd hdm
    have := h.own
    have := h.ok.ok.ghost.owned
    omega
  unfold controls
  rw [zipIdx_box, List.filter_map]
  have e : ((fun yi : List Int × Nat => inside L.dir yi.1) ∘ fun y => (y, (pos (L.dir.map fun d => (d.nodeGstart, d.nodeGwidth)) y).toNat)) = inside L.dir := rfl
  rw [e, List.map_map]
  have hsub : ∀ y ∈ (box (L.dir.map fun d => (d.nodeGstart, d.nodeGwidth))).filter (inside L.dir),
      ((fun yi : List Int × Nat => Blk.sequence ((List.range nsd).map fun c => Res.ofOption arr[yi.2 + c]?)) ∘
        fun y => (y, (pos (L.dir.map fun d => (d.nodeGstart, d.nodeGwidth)) y).toNat)) y =
      .ok ((fun y => (List.range nsd).map fun c => arr.getD ((pos (L.dir.map fun d => (d.nodeGstart, d.nodeGwidth)) y).toNat + c) 0) y) := by
    intro y hy
    have hy := (List.mem_filter.1 hy).1
    obtain ⟨p0, p1⟩ := pos_get hy
    have hlt := (List.getElem?_eq_some_iff.1 p1).1
    have hlb := length_box (L.dir.map fun d => (d.nodeGstart, d.nodeGwidth)) (by
      intro q hq
      rw [List.mem_map] at hq
      obtain ⟨d, hdm, rfl⟩ := hq
      have := hin d hdm
      dsimp only
      omega)
    rw [List.map_map] at hlb
    have e : (Prod.snd ∘ fun d : Dir => (d.nodeGstart, d.nodeGwidth)) = Dir.nodeGwidth := rfl
    rw [e] at hlb
    dsimp only [Function.comp]
    rw [sequence_ok _ (fun c => arr.getD ((pos (L.dir.map fun d => (d.nodeGstart, d.nodeGwidth)) y).toNat + c) 0)]
    intro c hc
    rw [List.mem_range] at hc
    have : (pos (L.dir.map fun d => (d.nodeGstart, d.nodeGwidth)) y).toNat + c < arr.length := by
      generalize (pos (L.dir.map fun d => (d.nodeGstart, d.nodeGwidth)) y).toNat = q at hlt ⊢
      have h1 : q + 1 ≤ (prod (L.dir.map Dir.nodeGwidth)).toNat := by omega
      have h2 : (q + 1) * nsd ≤ (prod (L.dir.map Dir.nodeGwidth)).toNat * nsd := Nat.mul_le_mul_right _ h1
      have h3 : q * 1 ≤ q * nsd := Nat.mul_le_mul_left _ (by omega)
      have h4 : (q + 1) * nsd = q * nsd + nsd := by ring
      omega
    rw [List.getD_eq_getElem?_getD, List.getElem?_eq_getElem this]
    rfl
  rw [sequence_ok _ _ _ hsub, filter_box _ hin]
  dsimp only [Res.bind]
  rw [← List.flatMap_def]

theorem number_block {axs : List (Axis K)} {ds : List Dir} (h : List.Forall₂ (DirP colloc) axs ds)
    (hw : colloc = false ∨ ∀ ax ∈ axs, ax.periodic = false) : ∀ {x : List Int}, InBlock (ds.map Dir.nodeGstart) (ds.map Dir.nodeGwidth) x →
    InBlock (ds.map Dir.geomGstart) (ds.map Dir.geomGwidth) (numberOf colloc axs x) ∧
      rel (ds.map Dir.geomGstart) (numberOf colloc axs x) = rel (ds.map Dir.nodeGstart) x ∧
      ds.map Dir.geomGwidth = ds.map Dir.nodeGwidth := by
  induction h with
  | nil => intro x hx; cases hx; exact ⟨.nil, rfl, rfl⟩
  | @cons ax d axs ds h1 h2 ih =>
    intro x hx
    simp only [List.map_cons] at hx
    cases hx with
    | @cons _ _ i _ _ is b1 b2 =>
      obtain ⟨a, b, c⟩ := ih (hw.imp id fun h a ha => h a (by simp [ha])) b2
      have hg := h1.gstart
      have hgw := h1.gwidth (hw.imp id fun h => h ax (by simp))
      unfold numberOf rel at *
      simp only [List.map_cons, List.zipWith_cons_cons]
      refine ⟨.cons (by omega) a, ?_, by rw [hgw, c]⟩
      rw [b]
      congr 1
      omega

/-- Every process holds the control points `X` of its ghosted box, `geometry` coordinates each (`iga->geometryX`). -/
def HasGeometry (Ls : List (Layout K)) (geometry : Nat) (xyz : Nat → Option (List K)) (X : List Int → Nat → K) : Prop :=
  ∀ (r : Nat) L, Ls[r]? = some L → ∃ arr, xyz r = some arr ∧ arr.length = (prod (L.dir.map Dir.geomGwidth)).toNat * geometry ∧
    Stores (L.dir.map Dir.geomGstart) (L.dir.map Dir.geomGwidth) geometry arr X

theorem own_inGhost {axs : List (Axis K)} {ds : List Dir} (h : List.Forall₂ (DirW colloc) axs ds) :
    ∀ {x : List Int}, InBlock (ds.map Dir.nodeLstart) (ds.map Dir.nodeLwidth) x → InBlock (ds.map Dir.nodeGstart) (ds.map Dir.nodeGwidth) x := by
  induction h with
  | nil => intro x hx; exact hx
  | cons a b ih =>
    intro x hx
    simp only [List.map_cons] at hx ⊢
    cases hx with
    | cons c1 c2 =>
      have := a.ok.ok.ghost.owned
      exact .cons (by omega) (ih c2)

/-- What the call returns with a geometry of dimension `dim ≤ nsd ≤ 3`: at a node it writes the `nsd` entries of the
array of control points that begin at the position of the node in the ghosted box of its process (not at `nsd` times
this position). -/
theorem C50_geometry_read (S : Setup g2 g3 colloc size procs axes axs Ls) (hw : colloc = false ∨ ∀ ax ∈ axs, ax.periodic = false)
    (huge : K) (types : List BasisType) (nsd : Nat) (h1 : axs.length ≤ nsd) (h3 : nsd ≤ 3)
    (xyz : Nat → Option (List K)) (X : List Int → Nat → K) (hX : HasGeometry Ls nsd xyz X) :
    ∃ outs u, createCoordinates huge types nsd Ls xyz = .ok outs ∧ Represents axs Ls nsd (vec outs) u ∧
      ∀ (r : Nat) L arr x (c : Nat), Ls[r]? = some L → xyz r = some arr → InBlock (L.dir.map Dir.nodeLstart) (L.dir.map Dir.nodeLwidth) x → c < nsd →
        arr[(flat (L.dir.map Dir.nodeGwidth) (rel (L.dir.map Dir.nodeGstart) x)).toNat + c]? = some (u x c) := by
  classical
  have hdim := (setup_len S).1
  have hnsd : nsdOf axs.length nsd = nsd := by unfold nsdOf; omega
  choose! arrs ha hl hs using hX
  have hwid : ∀ (r : Nat) (L : Layout K), Ls[r]? = some L → L.dir.map Dir.geomGwidth = L.dir.map Dir.nodeGwidth := by
    intro r L h
    have hd := setup_dirs S h (R := DirP colloc) (fun ax P r a b c d e f => dirP a b c d e f)
    generalize L.dir = ds at hd
    clear * - hd hw
    induction hd with
    | nil => rfl
    | @cons ax d axs ds a b ih =>
      simp only [List.map_cons]
      rw [a.gwidth (hw.imp id fun h => h ax (by simp)), ih (hw.imp id fun h a ha => h a (by simp [ha]))]
  have hD : ∀ (r : Nat) (L : Layout K), Ls[r]? = some L → List.Forall₂ (DirW colloc) axs L.dir := fun r L h =>
    setup_dirs S h (R := DirW colloc) (fun ax P r a b c d e f => dirW a b c d e f)
  let own : List Int → Nat → Prop := fun x r => ∃ L, Ls[r]? = some L ∧ InBlock (L.dir.map Dir.nodeLstart) (L.dir.map Dir.nodeLwidth) x
  have huniq : ∀ x r r', own x r → own x r' → r = r' := by
    rintro x r r' ⟨L, hL, hx⟩ ⟨L', hL', hx'⟩
    obtain ⟨D, hp⟩ := S.grid
    have hg : (world (appWorld Ls))[r]? = some (L.dir.map gdir) := by
      unfold world appWorld
      rw [List.getElem?_map, List.getElem?_map, hL]
      simp only [Option.map_some, List.map_map]
      rfl
    have hg' : (world (appWorld Ls))[r']? = some (L'.dir.map gdir) := by
      unfold world appWorld
      rw [List.getElem?_map, List.getElem?_map, hL']
      simp only [Option.map_some, List.map_map]
      rfl
    have e1 : (L.dir.map gdir).map GDir.lstart = L.dir.map Dir.nodeLstart ∧ (L.dir.map gdir).map GDir.lwidth = L.dir.map Dir.nodeLwidth := by
      constructor <;> (rw [List.map_map]; rfl)
    have e2 : (L'.dir.map gdir).map GDir.lstart = L'.dir.map Dir.nodeLstart ∧ (L'.dir.map gdir).map GDir.lwidth = L'.dir.map Dir.nodeLwidth := by
      constructor <;> (rw [List.map_map]; rfl)
    have hbox : InBox (axs.map Axis.nnp) x := by
      have hd := hD r L hL
      generalize L.dir = ds at hd hx
      clear * - hd hx
      induction hd generalizing x with
      | nil => cases hx; exact .nil
      | cons a b ih =>
        simp only [List.map_cons] at hx ⊢
        cases hx with
        | cons c1 c2 =>
          have := a.own
          exact .cons (by omega) (ih _ c2)
    obtain ⟨q, -, hq⟩ := D.part.owner x hbox
    have a1 := hq r (List.getElem?_eq_some_iff.1 hg).1 (by rw [(own_get hg).1, (own_get hg).2.1, e1.1, e1.2]; exact hx)
    have a2 := hq r' (List.getElem?_eq_some_iff.1 hg').1 (by rw [(own_get hg').1, (own_get hg').2.1, e2.1, e2.2]; exact hx')
    omega
  let val : Nat → List Int → Nat → K := fun r x c =>
    match Ls[r]? with
    | some L => (arrs r L).getD ((pos (L.dir.map fun d => (d.nodeGstart, d.nodeGwidth)) x).toNat + c) 0
    | none => 0
  let u : List Int → Nat → K := fun x c => if h : ∃ r, own x r then val h.choose x c else 0
  have hu : ∀ (r : Nat) L x c, Ls[r]? = some L → InBlock (L.dir.map Dir.nodeLstart) (L.dir.map Dir.nodeLwidth) x →
      u x c = (arrs r L).getD ((pos (L.dir.map fun d => (d.nodeGstart, d.nodeGwidth)) x).toNat + c) 0 := by
    intro r L x c hL hx
    have h : ∃ r, own x r := ⟨r, L, hL, hx⟩
    have e : h.choose = r := huniq x _ _ h.choose_spec ⟨L, hL, hx⟩
    show (if h : ∃ r, own x r then val h.choose x c else 0) = _
    rw [dif_pos h, e]
    simp only [val, hL]
  refine ⟨_, u, ?_, represents_local S nsd u _ rfl, ?_⟩
  · unfold createCoordinates
    have : ∀ Lr ∈ Ls.zipIdx, onRank huge types nsd Lr.1 (xyz Lr.2) = .ok ((fun Lr : Layout K × Nat =>
        (box (Lr.1.dir.map fun d => (d.nodeLstart, d.nodeLwidth))).flatMap fun y => (List.range nsd).map (u y)) Lr) := by
      rintro ⟨L, r⟩ hL
      rw [List.mem_zipIdx_iff_getElem?] at hL
      dsimp only at hL ⊢
      obtain ⟨g, rfl⟩ : ∃ g, nsd = g + 1 := ⟨nsd - 1, by omega⟩
      rw [ha r L hL]
      show controls (nsdOf L.dir.length (g+1)) L (arrs r L) = _
      rw [← (hD r L hL).length_eq, hnsd, controls_ok (hD r L hL) (g+1) (arrs r L) (by rw [hl r L hL, hwid r L hL])]
      congr 1
      rw [List.flatMap_def, List.flatMap_def]
      congr 1
      apply List.map_congr_left
      intro y hy
      apply List.map_congr_left
      intro c _
      rw [mem_box, List.map_map, List.map_map] at hy
      exact (hu r L y c hL hy).symm
    rw [sequence_ok _ _ _ this]
    congr 1
    rw [show (fun Lr : Layout K × Nat => (box (Lr.1.dir.map fun d => (d.nodeLstart, d.nodeLwidth))).flatMap fun y => (List.range nsd).map (u y)) =
      (fun L : Layout K => (box (L.dir.map fun d => (d.nodeLstart, d.nodeLwidth))).flatMap fun y => (List.range nsd).map (u y)) ∘ Prod.fst from rfl,
      ← List.map_map, List.zipIdx_map_fst]
  · intro r L arr x c hL harr hx hc
    rw [ha r L hL] at harr
    simp only [Option.some.injEq] at harr
    subst harr
    rw [hu r L x c hL hx]
    have hx' := own_inGhost (hD r L hL) hx
    have e : pos (L.dir.map fun d => (d.nodeGstart, d.nodeGwidth)) x = flat (L.dir.map Dir.nodeGwidth) (rel (L.dir.map Dir.nodeGstart) x) := by
      unfold pos
      rw [List.map_map, List.map_map]
      rfl
    rw [e]
    obtain ⟨f0, f1⟩ := flat_range (rel_inBox hx')
    have hlt : (flat (L.dir.map Dir.nodeGwidth) (rel (L.dir.map Dir.nodeGstart) x)).toNat + c < (arrs r L).length := by
      rw [hl r L hL, hwid r L hL]
      generalize flat (L.dir.map Dir.nodeGwidth) (rel (L.dir.map Dir.nodeGstart) x) = q at f0 f1 ⊢
      have h1 : q.toNat + 1 ≤ (prod (L.dir.map Dir.nodeGwidth)).toNat := by omega
      have h2 : (q.toNat + 1) * nsd ≤ (prod (L.dir.map Dir.nodeGwidth)).toNat * nsd := Nat.mul_le_mul_right _ h1
      have h3 : q.toNat * 1 ≤ q.toNat * nsd := Nat.mul_le_mul_left _ (by omega)
      have h4 : (q.toNat + 1) * nsd = q.toNat * nsd + nsd := by ring
      omega
    rw [List.getD_eq_getElem?_getD, List.getElem?_eq_getElem hlt]
    rfl

/-- **C50** with a geometry, one dimension (the case in which the position needs no factor): the vector stores the
control point of every node. -/
theorem C50_geometry_partial (S : Setup g2 g3 colloc size procs axes axs Ls) (hw : colloc = false ∨ ∀ ax ∈ axs, ax.periodic = false)
    (huge : K) (types : List BasisType) (h1 : axs.length = 1)
    (xyz : Nat → Option (List K)) (X : List Int → Nat → K) (hX : HasGeometry Ls 1 xyz X) :
    ∃ outs, createCoordinates huge types 1 Ls xyz = .ok outs ∧ Represents axs Ls 1 (vec outs) (fun x c => X (numberOf colloc axs x) c) := by
  obtain ⟨outs, u, a, b, h⟩ := C50_geometry_read S hw huge types 1 (by omega) (by omega) xyz X hX
  refine ⟨outs, a, ?_⟩
  intro x c hx hc
  rw [b x c hx hc]
  obtain ⟨D, hp⟩ := S.grid
  obtain ⟨r, ⟨q1, q2⟩, -⟩ := D.part.owner x hx
  obtain ⟨g, hg⟩ := get_of_lt q1
  rw [(own_get hg).1, (own_get hg).2.1] at q2
  have hLg : ∃ L, Ls[r]? = some L ∧ L.dir.map gdir = g := by
    unfold world appWorld at hg
    rw [List.getElem?_map, List.getElem?_map] at hg
    cases hL : Ls[r]? with
    | none => rw [hL] at hg; simp at hg
    | some L =>
      rw [hL] at hg
      simp only [Option.map_some, Option.some.injEq, List.map_map] at hg
      exact ⟨L, rfl, hg⟩
  obtain ⟨L, hL, rfl⟩ := hLg
  rw [List.map_map, List.map_map] at q2
  obtain ⟨arr, e1, e2, e3⟩ := hX r L hL
  have hd := setup_dirs S hL (R := DirP colloc) (fun ax P r a b c d e f => dirP a b c d e f)
  have hx' := own_inGhost (setup_dirs S hL (R := DirW colloc) (fun ax P r a b c d e f => dirW a b c d e f)) q2
  obtain ⟨k1, k2, k3⟩ := number_block hd hw hx'
  have r1 := h r L arr x c hL e1 q2 hc
  have r2 := e3 _ c k1 hc
  obtain ⟨f0, f1⟩ := flat_range (rel_inBox hx')
  rw [k2, k3, Nat.cast_one, mul_one, Int.toNat_add f0 (by omega), Int.toNat_natCast, r1] at r2
  exact Option.some.inj r2

/-- **C50** does not hold with a geometry of dimension two or three: if the coordinates of the control points differ,
then every node that is not the first corner of the ghosted box of its process gets a wrong first coordinate. -/
theorem C50_geometry_refuted (S : Setup g2 g3 colloc size procs axes axs Ls) (hw : colloc = false ∨ ∀ ax ∈ axs, ax.periodic = false)
    (huge : K) (types : List BasisType) (nsd : Nat) (h1 : axs.length ≤ nsd) (h2 : 2 ≤ nsd) (h3 : nsd ≤ 3)
    (xyz : Nat → Option (List K)) (X : List Int → Nat → K) (hX : HasGeometry Ls nsd xyz X)
    (hinj : ∀ y c y' c', X y c = X y' c' → y = y' ∧ c = c') :
    ∃ outs u, createCoordinates huge types nsd Ls xyz = .ok outs ∧ Represents axs Ls nsd (vec outs) u ∧
      ∀ (r : Nat) L x, Ls[r]? = some L → InBlock (L.dir.map Dir.nodeLstart) (L.dir.map Dir.nodeLwidth) x → x ≠ L.dir.map Dir.nodeGstart →
        u x 0 ≠ X (numberOf colloc axs x) 0 := by
  obtain ⟨outs, u, a, b, h⟩ := C50_geometry_read S hw huge types nsd h1 h3 xyz X hX
  refine ⟨outs, u, a, b, ?_⟩
  intro r L x hL hx hne he
  obtain ⟨arr, e1, e2, e3⟩ := hX r L hL
  have hd := setup_dirs S hL (R := DirP colloc) (fun ax P r a b c d e f => dirP a b c d e f)
  have hx' := own_inGhost (setup_dirs S hL (R := DirW colloc) (fun ax P r a b c d e f => dirW a b c d e f)) hx
  obtain ⟨k1, k2, k3⟩ := number_block hd hw hx'
  have r1 := h r L arr x 0 hL e1 hx (by omega)
  obtain ⟨f0, f1⟩ := flat_range (rel_inBox hx')
  generalize hq : flat (L.dir.map Dir.nodeGwidth) (rel (L.dir.map Dir.nodeGstart) x) = q at r1 f0 f1
  obtain ⟨y, y1, y2⟩ : ∃ y, InBlock (L.dir.map Dir.geomGstart) (L.dir.map Dir.geomGwidth) y ∧
      flat (L.dir.map Dir.geomGwidth) (rel (L.dir.map Dir.geomGstart) y) = q / nsd := by
    have hb := length_box (L.dir.map fun d => (d.geomGstart, d.geomGwidth)) (by
      intro p hp
      rw [List.mem_map] at hp
      obtain ⟨d, hdm, rfl⟩ := hp
      obtain ⟨ax, hh⟩ := dir_mem hd hdm
      exact hh.range.2.1)
    have ew : (L.dir.map fun d => (d.geomGstart, d.geomGwidth)).map Prod.snd = L.dir.map Dir.geomGwidth := by rw [List.map_map]; rfl
    have es : (L.dir.map fun d => (d.geomGstart, d.geomGwidth)).map Prod.fst = L.dir.map Dir.geomGstart := by rw [List.map_map]; rfl
    rw [ew, k3] at hb
    have hle : q / nsd ≤ q := Int.ediv_le_self _ f0
    have h0 : 0 ≤ q / nsd := Int.ediv_nonneg f0 (by omega)
    have hlt : (q / nsd).toNat < (box (L.dir.map fun d => (d.geomGstart, d.geomGwidth))).length := by omega
    obtain ⟨y, hy⟩ : ∃ y, (box (L.dir.map fun d => (d.geomGstart, d.geomGwidth)))[(q / nsd).toNat]? = some y :=
      ⟨_, List.getElem?_eq_getElem hlt⟩
    have hm := List.mem_of_getElem? hy
    rw [mem_box, ew, es] at hm
    refine ⟨y, hm, ?_⟩
    have := pos_of_get hy
    unfold pos at this
    rw [ew, es] at this
    rw [this]
    omega
  have hmod : 0 ≤ q % nsd ∧ q % nsd < nsd := ⟨Int.emod_nonneg _ (by omega), Int.emod_lt_of_pos _ (by omega)⟩
  have r2 := e3 y (q % nsd).toNat y1 (by omega)
  rw [y2, show q / (nsd:Int) * nsd + ((q % (nsd:Int)).toNat : Int) = q by
    rw [Int.toNat_of_nonneg hmod.1]
    have := Int.emod_add_mul_ediv q nsd
    rw [mul_comm]
    omega, show q.toNat = q.toNat + 0 from rfl, r1] at r2
  rw [Option.some.inj r2] at he
  obtain ⟨i1, i2⟩ := hinj _ _ _ _ he
  subst i1
  rw [k2, k3, hq] at y2
  have hq0 : q = 0 := by
    by_contra hc
    have : q / nsd < q := Int.ediv_lt_self_of_pos_of_ne_one (by omega) (by omega) 
    omega
  apply hne
  clear * - hq hq0 hx' 
  rw [hq0] at hq
  have hc : InBlock (L.dir.map Dir.nodeGstart) (L.dir.map Dir.nodeGwidth) (L.dir.map Dir.nodeGstart) ∧
      flat (L.dir.map Dir.nodeGwidth) (rel (L.dir.map Dir.nodeGstart) (L.dir.map Dir.nodeGstart)) = 0 := by
    generalize L.dir = ds at hx' ⊢
    clear hq
    induction ds generalizing x with
    | nil => exact ⟨.nil, rfl⟩
    | cons d ds ih =>
      simp only [List.map_cons] at hx' ⊢
      cases hx' with
      | cons c1 c2 =>
        obtain ⟨j1, j2⟩ := ih _ c2
        refine ⟨.cons (by omega) j1, ?_⟩
        unfold rel at j2 ⊢
        simp only [List.zipWith_cons_cons, flat]
        rw [j2]
        ring
  have e1 := (box_get (L.dir.map fun d => (d.nodeGstart, d.nodeGwidth)) x (by rw [List.map_map, List.map_map]; exact hx')).2
  have e2 := (box_get (L.dir.map fun d => (d.nodeGstart, d.nodeGwidth)) (L.dir.map Dir.nodeGstart) (by rw [List.map_map, List.map_map]; exact hc.1)).2
  have ew : (L.dir.map fun d => (d.nodeGstart, d.nodeGwidth)).map Prod.snd = L.dir.map Dir.nodeGwidth := by rw [List.map_map]; rfl
  have es : (L.dir.map fun d => (d.nodeGstart, d.nodeGwidth)).map Prod.fst = L.dir.map Dir.nodeGstart := by rw [List.map_map]; rfl
  rw [ew, es, hq] at e1
  rw [ew, es, hc.2] at e2
  rw [e1] at e2
  exact Option.some.inj e2

/-! ### The points reproduce the parametric coordinate -/

section Linear
open Polynomial PetIGA.Bsp

/-- Sum of the `q` inner knots of function `i`. -/
def knotSum (U : Int → K) (q : Nat) (i : Int) : K := ∑ j ∈ range q, U (i + 1 + (j:Int))

theorem piece_linear (U : Int → K) (k : Int) : ∀ (q : Nat), Sep U k q →
    ∑ r ∈ range (q+1), C (knotSum U q (k - q + r)) * piece U k q (k - q + r) = (q : K[X]) * X
  | 0, _ => by simp [piece, knotSum]
  | q+1, hs => by
    have ih := piece_linear U k q (hs.mono (by omega))
    have ih1 := piece_sum U k q (hs.mono (by omega))
    simp only [piece_succ, mul_add]
    rw [Finset.sum_add_distrib]
    have h1 : ∑ x ∈ range (q+1+1), C (knotSum U (q+1) (k - ((q+1:Nat):Int) + x)) *
        (C (U (k - ((q+1:Nat):Int) + x + q + 1) - U (k - ((q+1:Nat):Int) + x))⁻¹ *
        (X - C (U (k - ((q+1:Nat):Int) + x))) * piece U k q (k - ((q+1:Nat):Int) + x)) =
        ∑ x ∈ range (q+1), C (knotSum U q (k - q + x) + U (k - q + x + q + 1)) * (C (U (k - q + x + q + 1) - U (k - q + x))⁻¹ *
        (X - C (U (k - q + x))) * piece U k q (k - q + x)) := by
      rw [Finset.sum_range_succ', piece_zero U k q _ (Or.inl (by push_cast; omega)), mul_zero, mul_zero, add_zero]
      refine Finset.sum_congr rfl (fun x _ => ?_)
      rw [show k - ((q+1:Nat):Int) + ((x+1:Nat):Int) = k - q + x by push_cast; ring]
      congr 2
      unfold knotSum
      rw [Finset.sum_range_succ]
      congr 2
      ring
    have h2 : ∑ x ∈ range (q+1+1), C (knotSum U (q+1) (k - ((q+1:Nat):Int) + x)) *
        (C (U (k - ((q+1:Nat):Int) + x + q + 2) - U (k - ((q+1:Nat):Int) + x + 1))⁻¹ *
        (C (U (k - ((q+1:Nat):Int) + x + q + 2)) - X) * piece U k q (k - ((q+1:Nat):Int) + x + 1)) =
        ∑ x ∈ range (q+1), C (U (k - q + x) + knotSum U q (k - q + x)) * (C (U (k - q + x + q + 1) - U (k - q + x))⁻¹ *
        (C (U (k - q + x + q + 1)) - X) * piece U k q (k - q + x)) := by
      rw [Finset.sum_range_succ, piece_zero U k q _ (Or.inr (by push_cast; omega)), mul_zero, mul_zero, add_zero]
      refine Finset.sum_congr rfl (fun x _ => ?_)
      rw [show k - ((q+1:Nat):Int) + (x:Int) + 1 = k - q + x by push_cast; ring,
        show k - ((q+1:Nat):Int) + (x:Int) + q + 2 = k - q + x + q + 1 by push_cast; ring]
      congr 2
      unfold knotSum
      rw [Finset.sum_range_succ', add_comm]
      congr 1
      · congr 1; push_cast; ring
      · refine Finset.sum_congr rfl (fun j _ => ?_)
        congr 1; push_cast; ring
    rw [h1, h2, ← Finset.sum_add_distrib]
    have h3 : ∀ x ∈ range (q+1), C (knotSum U q (k - q + x) + U (k - q + x + q + 1)) * (C (U (k - q + x + q + 1) - U (k - q + x))⁻¹ *
        (X - C (U (k - q + x))) * piece U k q (k - q + x)) + C (U (k - q + x) + knotSum U q (k - q + x)) * (C (U (k - q + x + q + 1) - U (k - q + x))⁻¹ *
        (C (U (k - q + x + q + 1)) - X) * piece U k q (k - q + x)) =
        C (knotSum U q (k - q + x)) * piece U k q (k - q + x) + X * piece U k q (k - q + x) := by
      intro x hx
      have hx' : x ≤ q := by have := Finset.mem_range.1 hx; omega
      have hne : U (k - q + x + q + 1) - U (k - q + x) ≠ 0 := sub_ne_zero.2
        (hs _ _ (by push_cast; omega) (by omega) (by omega) (by push_cast; omega)).symm
      have hc : C (U (k - q + x + q + 1) - U (k - q + x))⁻¹ * (C (U (k - q + x + q + 1)) - C (U (k - q + x))) = 1 := by
        rw [← C_sub, ← C_mul, inv_mul_cancel₀ hne, C_1]
      rw [C_add, C_add]
      linear_combination (piece U k q (k - q + x)) * (C (knotSum U q (k - q + x)) + X) * hc
    rw [Finset.sum_congr rfl h3, Finset.sum_add_distrib, ih, ← Finset.mul_sum, ih1]
    push_cast
    ring

/-- **C50**, what the points are for: the B-spline combination of the node points of the functions of an element is the
parametric coordinate itself, at every point.  So the vector of a grid without geometry is the net of the identity map. -/
theorem C50_linear_precision {ax : Axis K} (h : WF ax) {k : Int} (hk : IsElement ax.p.toNat ax.m ax.U k) (bt : BasisType)
    (hb : bt ≠ .spectral) (g : Nat → K) (hg : ∀ r : Nat, r ≤ ax.p.toNat → NodePoint ax bt (k - ax.p + r) (g r)) (v : K) :
    ∑ r ∈ range (ax.p.toNat + 1), g r * (piece ax.U k ax.p.toNat (k - ax.p + r)).eval v = v := by
  have hp := h.legal.degree
  obtain ⟨e1, e2, e3⟩ := hk
  have hs : SortedKnots ax.m ax.U := h.legal.sorted
  have hl := piece_linear ax.U k ax.p.toNat (sep_of_sorted hs e1 (by omega) e3)
  have hl := congrArg (eval v) hl
  rw [eval_finset_sum] at hl
  have hp0 : ((ax.p.toNat : Nat) : K) ≠ 0 := by
    rw [Nat.cast_ne_zero]; omega
  have hpc : ((ax.p.toNat : Nat) : K) = (ax.p : K) := by
    have : ((ax.p.toNat : Nat) : Int) = ax.p := by omega
    rw [← Int.cast_natCast, this]
  have hpi : ((ax.p.toNat : Nat) : Int) = ax.p := by omega
  apply mul_left_cancel₀ hp0
  rw [Finset.mul_sum]
  simp only [eval_mul, eval_X, eval_C, eval_natCast] at hl
  rw [← hl]
  refine Finset.sum_congr rfl (fun r hr => ?_)
  rw [← mul_assoc, hpc, (hg r (by have := Finset.mem_range.1 hr; omega)).1 hb, hpi]
  rfl

end Linear

/-! ### The hypotheses can be met -/

/-- Any net of control points can be held by the processes. -/
theorem hasGeometry_exists (S : Setup g2 g3 colloc size procs axes axs Ls) (nsd : Nat) (X : List Int → Nat → K) :
    ∃ xyz, HasGeometry Ls nsd xyz X := by
  refine ⟨fun r => Ls[r]?.map fun L => (box (L.dir.map fun d => (d.geomGstart, d.geomGwidth))).flatMap fun y => (List.range nsd).map (X y), ?_⟩
  intro r L hL
  have hd := setup_dirs S hL (R := DirP colloc) (fun ax P r a b c d e f => dirP a b c d e f)
  have ew : (L.dir.map fun d => (d.geomGstart, d.geomGwidth)).map Prod.snd = L.dir.map Dir.geomGwidth := by rw [List.map_map]; rfl
  have es : (L.dir.map fun d => (d.geomGstart, d.geomGwidth)).map Prod.fst = L.dir.map Dir.geomGstart := by rw [List.map_map]; rfl
  refine ⟨_, by dsimp only; rw [hL]; rfl, ?_, ?_⟩
  · rw [flatMap_len]
    congr 1
    have hb := length_box (L.dir.map fun d => (d.geomGstart, d.geomGwidth)) (by
      intro p hp
      rw [List.mem_map] at hp
      obtain ⟨d, hdm, rfl⟩ := hp
      obtain ⟨ax, hh⟩ := dir_mem hd hdm
      exact hh.range.2.1)
    rw [ew] at hb
    omega
  · intro y c hy hc
    obtain ⟨b0, b1⟩ := box_get (L.dir.map fun d => (d.geomGstart, d.geomGwidth)) y (by rw [ew, es]; exact hy)
    rw [ew, es] at b0 b1
    have := flatMap_get nsd X _ _ c y b1 hc
    rw [Int.toNat_add (Int.mul_nonneg b0 (by omega)) (by omega), Int.toNat_mul b0 (by omega), Int.toNat_natCast, Int.toNat_natCast]
    exact this

/-- A two-dimensional grid on four processes, B-splines in one direction and the spectral basis in the other. -/
example : ∃ Ls outs u, Setup exactGuess2 exactGuess3 false 4 [2,2] [exAx0, exAx1] exAxs Ls ∧
    createCoordinates (10^9) [.bspline, .spectral] 0 Ls (fun _ => none) = .ok outs ∧ Represents exAxs Ls 2 (vec outs) u := by
  obtain ⟨Ls, S⟩ := exSetup exactGuess2 exactGuess3
  have hr : List.Forall₂ (Regular (K := Rat)) exAxs [.bspline, .spectral] :=
    .cons ⟨by decide +kernel, by decide +kernel⟩ (.cons ⟨by decide +kernel, by decide +kernel⟩ .nil)
  obtain ⟨outs, u, a, -, b, -⟩ := C50_parametric S (10^9) _ hr 0 (fun _ => none) (Or.inl rfl)
  exact ⟨Ls, outs, u, S, a, b⟩

/-- A curve in the plane whose coordinates differ; node 1 is not the first corner of a ghosted box. -/
example : ∃ xyz X, HasGeometry [exB0, exB1] 2 xyz X ∧ (∀ (y : List Int) c y' c', X y c = X y' c' → y = y' ∧ c = c') ∧
    InBlock (exB0.dir.map Dir.nodeLstart) (exB0.dir.map Dir.nodeLwidth) [1] ∧ ([1] : List Int) ≠ exB0.dir.map Dir.nodeGstart := by
  obtain ⟨xyz, h⟩ := hasGeometry_exists exSetupB 2 (fun y c => (Encodable.encode (y, c) : Rat))
  refine ⟨xyz, _, h, ?_, ?_, ?_⟩
  · intro y c y' c' e
    have := Encodable.encode_injective (Nat.cast_injective e)
    simpa using this
  · rw [exB_dir.1]; exact .cons (by decide) .nil
  · rw [exB_dir.1]; decide

/-- A straight line on two processes. -/
example : ∃ xyz, HasGeometry [exB0, exB1] 1 xyz (fun y _ => (y.sum : Rat)) := hasGeometry_exists exSetupB 1 _

/-- Element 2 of the axis of that line. -/
example : IsElement (Ax.setUp exAxB).2.p.toNat (Ax.setUp exAxB).2.m (Ax.setUp exAxB).2.U 3 := by
  unfold IsElement
  decide +kernel

end PetIGA.Crd
