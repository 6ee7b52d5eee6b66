import Verif.Model.Assemble
import Verif.Spec.Assembly
import Verif.Props.GridSetup
import Verif.Props.Elem
import Mathlib.Data.List.Perm.Basic
import Mathlib.Algebra.BigOperators.Group.List.Basic
set_option linter.unusedSectionVars false
/-
Lemmas for C48 and C51.
-/
namespace PetIGA.Asm
open PetIGA.Ax PetIGA.Lay PetIGA.Elem PetIGA.Grid PetIGA.Spec PetIGA.Part

variable {K : Type} [Field K] [LinearOrder K] [IsStrictOrderedRing K]

/-! ### Enumerations -/

theorem mem_indices : ∀ (ns x : List Int), x ∈ indices ns ↔ InBox ns x
  | [], x => by
    simp only [indices, List.mem_singleton]
    exact ⟨fun h => h ▸ .nil, fun h => by cases h; rfl⟩
  | n :: ns, x => by
    simp only [indices, List.mem_flatMap, List.mem_map, List.mem_range]
    constructor
    · rintro ⟨is, h1, k, h2, rfl⟩
      exact .cons (by omega) ((mem_indices ns is).1 h1)
    · intro h
      cases h with
      | @cons _ i _ is h1 h2 =>
        exact ⟨is, (mem_indices ns is).2 h2, i.toNat, by omega, by rw [show (i.toNat : Int) = i by omega]⟩

theorem box_plus : ∀ (l : List (Int × Int)), box l = (indices (l.map Prod.snd)).map (plus (l.map Prod.fst))
  | [] => rfl
  | (s, w) :: l => by
    simp only [box, List.map_cons, indices]
    rw [box_plus l, List.flatMap_map, List.map_flatMap]
    congr 1
    funext is
    rw [List.map_map]
    apply List.map_congr_left
    intro k _
    simp [plus]

theorem indices_box (ns : List Int) : indices ns = box (ns.map fun n => ((0:Int), n)) := by
  rw [box_plus]
  have e1 : (ns.map fun n => ((0:Int), n)).map Prod.snd = ns := by simp [Function.comp_def]
  have e2 : (ns.map fun n => ((0:Int), n)).map Prod.fst = ns.map fun _ => 0 := by simp [Function.comp_def]
  rw [e1, e2]
  have : ∀ t ∈ indices ns, plus (ns.map fun _ => 0) t = t := by
    intro t ht
    rw [mem_indices] at ht
    clear e1 e2
    induction ht with
    | nil => rfl
    | cons _ _ ih => simp only [plus, List.map_cons, List.zipWith_cons_cons, zero_add] at ih ⊢; rw [ih]
  conv_lhs => rw [← List.map_id (indices ns)]
  exact List.map_congr_left fun t ht => (this t ht).symm

theorem nodup_indices (ns : List Int) : (indices ns).Nodup := by rw [indices_box]; exact nodup_box _

theorem rel_zero : ∀ {ns t : List Int}, InBox ns t → rel (ns.map fun _ => 0) t = t
  | _, _, .nil => rfl
  | _, _, .cons _ h => by
    have := rel_zero h
    simp only [rel, List.map_cons, List.zipWith_cons_cons, sub_zero] at this ⊢; rw [this]

theorem zipIdx_indices (ns : List Int) : (indices ns).zipIdx = (indices ns).map fun t => (t, (flat ns t).toNat) := by
  have e1 : (ns.map fun n => ((0:Int), n)).map Prod.snd = ns := by simp [Function.comp_def]
  have e2 : (ns.map fun n => ((0:Int), n)).map Prod.fst = ns.map fun _ => 0 := by simp [Function.comp_def]
  conv_lhs => rw [indices_box]
  rw [zipIdx_box, ← indices_box]
  apply List.map_congr_left
  intro t ht
  rw [mem_indices] at ht
  unfold pos
  rw [e1, e2, rel_zero ht]

/-! ### The closure of an element -/

theorem mapping_eq (cds : List CDir) (h1 : 1 ≤ cds.length) (h3 : cds.length ≤ 3) :
    mapping cds = .ok ((box (cds.map fun d => (d.offset, (d.nen:Int)))).map fun y =>
      flat (cds.map CDir.gwidth) (rel (cds.map CDir.gstart) y)) := by
  match cds, h1, h3 with
  | [a], _, _ =>
    simp only [mapping, Res.ok.injEq, Elem.closure, cpad, List.map_cons, List.map_nil, box]
    simp [rel, flat, List.flatMap_map, Function.comp_def]
  | [a, b], _, _ =>
    simp only [mapping, Res.ok.injEq, Elem.closure, cpad, List.map_cons, List.map_nil, box]
    simp [rel, flat, List.map_flatMap, List.flatMap_map, Function.comp_def, mul_comm]
  | [a, b, c], _, _ =>
    simp only [mapping, Res.ok.injEq, Elem.closure, List.map_cons, List.map_nil, box]
    simp [rel, flat, List.map_flatMap, List.flatMap_map, List.flatMap_assoc, Function.comp_def, mul_add, mul_comm, mul_left_comm, add_assoc]
    simp only [mul_assoc]

theorem rows_col_eq (cds : List CDir) (h1 : 1 ≤ cds.length) (h3 : cds.length ≤ 3) :
    rows true cds = .ok [flat (cds.map CDir.gwidth) (rel (cds.map CDir.gstart) (cds.map CDir.id))] := by
  match cds, h1, h3 with
  | [a], _, _ => simp [rows, rowmap, cpad, rel, flat]
  | [a, b], _, _ => simp [rows, rowmap, cpad, rel, flat]; ring
  | [a, b, c], _, _ => simp [rows, rowmap, rel, flat]; ring

/-- Periodic shift of a direction (collocation only). -/
def shiftOf (colloc : Bool) (ax : Axis K) : Int := if colloc then (ax.m - ax.p - ax.nnp) / 2 else 0

/-- The span of element (or collocation point) `e`, see C06 and C10. -/
def spanOf (colloc : Bool) (ax : Axis K) (e : Int) : Res Int :=
  if colloc then grevSpan ax (e + shiftOf colloc ax) else spanAt ax e

/-- Number of the first basis function that is not zero on element (at collocation point) `e`. -/
def firstNode (colloc : Bool) (ax : Axis K) (e : Int) : Int :=
  match spanOf colloc ax e with
  | .ok k => k - ax.p - shiftOf colloc ax
  | _ => 0

/-- In all directions. -/
def firstNodes (colloc : Bool) (axes : List (Axis K)) (e : List Int) : List Int := List.zipWith (firstNode colloc) axes e

/-- Number of basis functions in each direction. -/
def nens (axes : List (Axis K)) : List Int := axes.map fun ax => ax.p + 1

/-- What the layout of a direction provides, including the row of a collocation point. -/
structure DirOK' (colloc : Bool) (ax : Axis K) (d : Dir) : Prop where
  ok : DirOK colloc ax d
  row : colloc = true → d.elemStart = d.nodeLstart ∧ d.elemWidth = d.nodeLwidth
  deg : 1 ≤ ax.p
  inside : 0 ≤ d.elemStart ∧ 1 ≤ d.elemWidth ∧ d.elemStart + d.elemWidth ≤ gridSize colloc ax

theorem dirOK' (colloc : Bool) (ax : Axis K) (P r : Int) (h : WF ax) (hc : Condition colloc ax) (hP : 1 ≤ P)
    (hN : P ≤ gridSize colloc ax) (h0 : 0 ≤ r) (h1 : r < P) : DirOK' colloc ax (dirAt colloc ax P r) := by
  refine ⟨dirOK colloc ax P r h hc hP hN h0 h1, ?_, h.legal.degree, ?_⟩
  · rintro rfl; exact ⟨rfl, rfl⟩
  · obtain ⟨a, b, c, -⟩ := bal_range hP hN h0 h1
    cases colloc <;> exact ⟨a, b, c⟩

/-- Everything about the closure of an owned element. -/
theorem cdirs_ok (colloc : Bool) : ∀ {axes : List (Axis K)} {ds : List Dir} {x : List Int},
    List.Forall₂ (DirOK' colloc) axes ds → InBlock (ds.map Dir.elemStart) (ds.map Dir.elemWidth) x →
    ∃ cds, cdirs colloc axes ds x = .ok cds ∧ cds.map CDir.offset = firstNodes colloc axes x ∧
      (cds.map fun d => (d.nen:Int)) = nens axes ∧ cds.map CDir.gstart = ds.map Dir.nodeGstart ∧
      cds.map CDir.gwidth = ds.map Dir.nodeGwidth ∧ cds.map CDir.id = x ∧ cds.length = axes.length ∧
      (∀ t, InBox (nens axes) t → InBlock (ds.map Dir.nodeGstart) (ds.map Dir.nodeGwidth) (plus (firstNodes colloc axes x) t)) ∧
      (colloc = true → InBlock (ds.map Dir.nodeGstart) (ds.map Dir.nodeGwidth) x)
  | _, _, _, .nil, hx => by
    cases hx
    exact ⟨[], rfl, rfl, rfl, rfl, rfl, rfl, rfl, by intro t ht; cases ht; exact .nil, fun _ => .nil⟩
  | _, _, _, .cons (a := ax) (b := d) h1 h2, hx => by
    simp only [List.map_cons] at hx
    cases hx with
    | @cons _ _ i _ _ is b1 b2 =>
      obtain ⟨cds, e, e1, e2, e3, e4, e5, e6, e7, e8⟩ := cdirs_ok colloc h2 b2
      obtain ⟨k, hk, hcl⟩ := h1.ok.ghost.closure i b1.1 b1.2
      have hsh : d.nodeShift = shiftOf colloc ax := h1.ok.shift
      have hsp : spanOf colloc ax i = .ok k := by unfold spanOf; rw [← hsh]; exact hk
      have hf : firstNode colloc ax i = k - ax.p - d.nodeShift := by unfold firstNode; rw [hsp, hsh]
      refine ⟨⟨(ax.p + 1).toNat, k - ax.p - d.nodeShift, i, d.nodeGstart, d.nodeGwidth⟩ :: cds, ?_, ?_, ?_, ?_, ?_, ?_, ?_, ?_, ?_⟩
      · unfold cdirs cdir
        rw [hk]
        simp only [Res.bind, e]
      · simp only [List.map_cons, e1, firstNodes, List.zipWith_cons_cons, hf]
      · have := h1.deg
        simp only [List.map_cons, e2, nens]
        congr 1
        omega
      · simp only [List.map_cons, e3]
      · simp only [List.map_cons, e4]
      · simp only [List.map_cons, e5]
      · simp only [List.length_cons, e6]
      · intro t ht
        unfold nens at ht
        rw [List.map_cons] at ht
        cases ht with
        | @cons _ j _ js c1 c2 =>
          simp only [List.map_cons, firstNodes, plus, List.zipWith_cons_cons]
          refine .cons ?_ (e7 js c2)
          rw [hf]
          have := hcl (k - ax.p + j) (by omega) (by omega)
          omega
      · intro hc
        simp only [List.map_cons]
        refine .cons ?_ (e8 hc)
        have := h1.row hc
        have := h1.ok.ghost.owned
        omega

theorem wrapAll_modAll (colloc : Bool) : ∀ {axes : List (Axis K)} {ds : List Dir} {y : List Int},
    List.Forall₂ (DirOK' colloc) axes ds → InBlock (ds.map Dir.nodeGstart) (ds.map Dir.nodeGwidth) y →
    wrapAll (axes.map Axis.nnp) y = modAll (axes.map Axis.nnp) y ∧ InBox (axes.map Axis.nnp) (modAll (axes.map Axis.nnp) y)
  | _, _, _, .nil, hy => by cases hy; exact ⟨rfl, .nil⟩
  | _, _, _, .cons (a := ax) (b := d) h1 h2, hy => by
    simp only [List.map_cons] at hy ⊢
    cases hy with
    | @cons _ _ i _ _ is b1 b2 =>
      obtain ⟨e1, e2⟩ := wrapAll_modAll colloc h2 b2
      obtain ⟨a, b, c⟩ := h1.ok.ghost.wrapped i b1.1 b1.2
      have e : wrap ax.nnp i = i % ax.nnp := by
        have : i % ax.nnp = wrap ax.nnp i % ax.nnp := by
          have := Int.emod_emod_of_dvd i (dvd_refl ax.nnp)
          exact (Int.emod_emod_of_dvd i (dvd_refl ax.nnp)).symm.trans (by
            have h := Int.emod_eq_emod_iff_emod_sub_eq_zero.mpr c
            rw [this]; exact h.symm)
        rw [this, Int.emod_eq_of_lt a b]
      unfold wrapAll modAll at *
      rw [List.zipWith_cons_cons, List.zipWith_cons_cons, e, e1]
      exact ⟨rfl, .cons (by rw [← e]; exact ⟨a, b⟩) e2⟩

theorem modAll_self {Ns x : List Int} (h : InBox Ns x) : modAll Ns x = x := by
  unfold modAll
  induction h with
  | nil => rfl
  | cons h1 _ ih => rw [List.zipWith_cons_cons, ih, Int.emod_eq_of_lt h1.1 h1.2]

/-! ### Sums of contributions -/

theorem assembled_append {ι V : Type} [DecidableEq ι] [AddCommMonoid V] (a b : List (ι × V)) (i : ι) :
    assembled (a ++ b) i = assembled a i + assembled b i := by
  unfold assembled; rw [List.filter_append, List.map_append, List.sum_append]

theorem assembled_flatMap {ι V α : Type} [DecidableEq ι] [AddCommMonoid V] (l : List α) (f : α → List (ι × V)) (i : ι) :
    assembled (l.flatMap f) i = (l.map fun x => assembled (f x) i).sum := by
  induction l with
  | nil => rfl
  | cons a l ih => rw [List.flatMap_cons, assembled_append, ih]; rfl

theorem assembled_map {ι V α : Type} [DecidableEq ι] [AddCommMonoid V] (l : List α) (f : α → ι) (v : α → V) (i : ι) :
    assembled (l.map fun x => (f x, v x)) i = (l.map fun x => if f x = i then v x else 0).sum := by
  induction l with
  | nil => rfl
  | cons a l ih =>
    have : assembled ((a :: l).map fun x => (f x, v x)) i =
        assembled [(f a, v a)] i + assembled (l.map fun x => (f x, v x)) i := by
      rw [← assembled_append]; rfl
    rw [this, ih, List.map_cons, List.sum_cons]
    congr 1
    unfold assembled
    by_cases h : f a = i <;> simp [h]

theorem sum_zero {α V : Type} [AddCommMonoid V] (l : List α) (f : α → V) (h : ∀ a ∈ l, f a = 0) : (l.map f).sum = 0 := by
  rw [List.map_congr_left h]; simp

theorem sum_single {V : Type} [AddCommMonoid V] (n c : Nat) (hc : c < n) (f : Nat → V) (h : ∀ k, k < n → k ≠ c → f k = 0) :
    ((List.range n).map f).sum = f c := by
  induction n with
  | zero => omega
  | succ n ih =>
    rw [List.range_succ, List.map_append, List.sum_append]
    by_cases e : c = n
    · subst e
      rw [sum_zero _ _ (fun k hk => h k (by have := List.mem_range.1 hk; omega) (by have := List.mem_range.1 hk; omega))]
      simp
    · rw [ih (by omega) fun k hk => h k (by omega)]
      simp [h n (by omega) (by omega)]

/-! ### All processes together -/

/-- The setup and the layouts of all processes. -/
structure Setup (g2 : Guess2) (g3 : Guess3) (colloc : Bool) (size : Int) (procs : List Int) (axes : List (Axis K))
    (axs : List (Axis K)) (Ls : List (Layout K)) : Prop where
  reached : ∀ ax ∈ axes, Reached ax
  dim : 1 ≤ axes.length ∧ axes.length ≤ 3
  set : setUpAxes axes = .ok axs
  nonempty : 1 ≤ size
  ranks : AllRanks g2 g3 colloc size procs axes Ls
  cond : ∀ ax ∈ axs, Condition colloc ax

theorem setUpAxes_length : ∀ {axes axes' : List (Axis K)}, setUpAxes axes = .ok axes' → axes'.length = axes.length := by
  intro axes
  induction axes with
  | nil => intro axes' h; simp [setUpAxes] at h; subst h; rfl
  | cons a as ih =>
    intro axes' h
    unfold setUpAxes at h
    cases hs : Ax.setUp a with
    | mk r a' =>
      rw [hs] at h
      cases r with
      | ok u =>
        simp only [Res.bind_eq_ok] at h
        obtain ⟨as', h1, h2⟩ := h
        simp only [Res.ok.injEq] at h2
        rw [← h2, List.length_cons, List.length_cons, ih h1]
      | err e => cases h
      | ub => cases h

variable {g2 : Guess2} {g3 : Guess3} {colloc : Bool} {size : Int} {procs : List Int} {axes axs : List (Axis K)}
  {Ls : List (Layout K)}

theorem stage1_axes {r : Int} {L : Layout K} (h : stage1 g2 g3 colloc size r procs axes = .ok L)
    (hs : setUpAxes axes = .ok axs) : L.axes = axs := by
  unfold stage1 at h
  simp only [Res.bind_eq_ok] at h
  obtain ⟨axes', ha, pr, hp, ws, hw, ds, hd, hL⟩ := h
  rw [hs] at ha
  simp only [Res.ok.injEq] at ha hL
  subst ha; subst hL; rfl

theorem Setup.get (S : Setup g2 g3 colloc size procs axes axs Ls) {r : Nat} {L : Layout K} (h : Ls[r]? = some L) :
    stage1 g2 g3 colloc size r procs axes = .ok L ∧ L.axes = axs ∧ List.Forall₂ (DirOK' colloc) axs L.dir ∧
    (world (appWorld Ls))[r]? = some (L.dir.map gdir) := by
  have h1 := S.ranks.2 r L h
  have h2 := stage1_axes h1 S.set
  refine ⟨h1, h2, ?_, ?_⟩
  · obtain ⟨hw, hf, hp, hall, huniq⟩ := stage1_all S.reached h1
    have hlt := (List.getElem?_eq_some_iff.1 h).1
    have hlen := S.ranks.1
    obtain ⟨c, hb, hs⟩ := hall r (by omega) (by omega)
    rw [h1] at hs
    simp only [Res.ok.injEq] at hs
    have hd : L.dir = mkDirs colloc L.axes L.procs c := by
      have := congrArg Layout.dir hs
      simpa using this
    rw [hd]
    rw [h2] at hw hf hd ⊢
    exact mkDirs_all colloc (fun ax P r a b => dirOK' colloc ax P r a b) (fun ax ha => ⟨hw ax ha, S.cond ax ha⟩) hf hb
  · have e1 : (appWorld Ls)[r]? = some (L.dir.map adir) := by
      unfold appWorld; rw [List.getElem?_map, h]; rfl
    rw [world_get e1, List.map_map]; rfl

end PetIGA.Asm
