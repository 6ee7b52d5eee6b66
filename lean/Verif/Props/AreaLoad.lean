import Verif.Props.Area
import Verif.Props.Fix
import Verif.Props.Quad
import Verif.Lemmas.AxisHist
import Verif.Spec.BSpline
import Mathlib.Analysis.SpecialFunctions.Integrals.Basic
import Mathlib.Tactic.IntervalCases
/-
C72: the loads an element, and a whole mesh, put on the nodes of the sides.
-/
set_option linter.unusedSectionVars false
namespace PetIGA.Area
open PetIGA.Spec PetIGA.Fix PetIGA.Form PetIGA.Grid Finset

/-- The side `s` of the element lies on the boundary of the domain. -/
def Touches (E : List ElemDir) (s : Nat × Bool) : Bool :=
  match E[s.1]? with
  | some d => !d.periodic && (if s.2 then decide (d.id = d.size - 1) else decide (d.id = 0))
  | none => false

/-! ### Sums over lists -/

theorem sum_swap {α β : Type} (f : α → β → ℝ) : ∀ (l : List α) (l' : List β),
    (l.map fun a => (l'.map fun b => f a b).sum).sum = (l'.map fun b => (l.map fun a => f a b).sum).sum
  | [], l' => by
    have : ∀ l' : List β, (l'.map fun _ => (0:ℝ)).sum = 0 := by
      intro l'; induction l' with
      | nil => rfl
      | cons _ _ ih => simp [ih]
    simp [this]
  | a :: l, l' => by
    simp only [List.map_cons, List.sum_cons]
    rw [sum_swap f l l', ← List.sum_map_add]

theorem sum_ite {α : Type} (p : α → Bool) (v : ℝ) : ∀ l : List α,
    (l.map fun a => if p a then v else 0).sum = ((l.filter p).length : ℝ) * v
  | [] => by simp
  | a :: l => by
    simp only [List.map_cons, List.sum_cons, sum_ite p v l, List.filter_cons]
    cases p a <;> simp
    ring

theorem filterMap_sum {α : Type} (g : α → Option ℝ) : ∀ l : List α,
    (l.filterMap g).sum = (l.map fun a => (g a).getD 0).sum
  | [] => rfl
  | a :: l => by
    rw [List.filterMap_cons, List.map_cons, List.sum_cons, ← filterMap_sum g l]
    cases g a <;> simp

/-! ### Number of nodes of a side -/

/-- The nodes of an element. -/
def nodes (ds : List EDir) : List (List Int) := box (ds.map fun d => ((0 : Int), (d.nen : Int)))

theorem mem_nodes (ds : List EDir) (x : List Int) : x ∈ nodes ds ↔ InBox (nens ds) x := by
  unfold nodes
  rw [mem_box, ← full_box]
  simp only [List.map_map, Function.comp_def, sub_zero]

theorem face_snd : ∀ (ds : List EDir) (dir : Nat) (side : Bool), dir < ds.length →
    (∀ p ∈ faceBox ds dir side, 0 ≤ p.2) ∧
      PetIGA.Spec.prod ((faceBox ds dir side).map Prod.snd) = PetIGA.Spec.prod (nens (ds.eraseIdx dir))
  | [], _, _, h => by simp at h
  | d :: ds, 0, side, _ => by
    simp only [faceBox, List.eraseIdx_zero, List.tail_cons, List.map_cons, List.map_map, Function.comp_def, sub_zero]
    refine ⟨?_, ?_⟩
    · intro p hp
      rcases List.mem_cons.1 hp with h | h
      · subst h; cases side <;> simp
      · obtain ⟨e, -, rfl⟩ := List.mem_map.1 h; simp
    · cases side <;> simp [PetIGA.Spec.prod, nens]
  | d :: ds, k+1, side, h => by
    obtain ⟨h1, h2⟩ := face_snd ds k side (by simpa using h)
    simp only [faceBox, List.eraseIdx_cons_succ, List.map_cons, sub_zero]
    refine ⟨?_, ?_⟩
    · intro p hp
      rcases List.mem_cons.1 hp with h | h
      · subst h; simp
      · exact h1 p h
    · simp only [PetIGA.Spec.prod, nens, List.map_cons] at h2 ⊢
      rw [h2]

theorem prod_nens (ds : List EDir) : PetIGA.Spec.prod (nens ds) = (((ds.map EDir.nen).prod : Nat) : Int) := by
  induction ds with
  | nil => simp [nens, PetIGA.Spec.prod]
  | cons d ds ih =>
    simp only [nens, List.map_cons, PetIGA.Spec.prod, List.prod_cons] at ih ⊢
    push_cast
    rw [ih]
    push_cast
    rfl

/-- A side has as many nodes as the product of the numbers of functions of the other directions. -/
theorem count_side (ds : List EDir) (hn : ∀ d ∈ ds, 1 ≤ d.nen) (s : Nat × Bool) (hs : s.1 < ds.length) :
    ((nodes ds).filter fun x => OnDomainSide (specDirs ds) x s).length =
      if Touches (specDirs ds) s then ((ds.eraseIdx s.1).map EDir.nen).prod else 0 := by
  obtain ⟨d, hd⟩ : ∃ d, ds[s.1]? = some d := ⟨_, List.getElem?_eq_getElem hs⟩
  have hE : (specDirs ds)[s.1]? = some ⟨d.nen, d.id, d.size, d.periodic⟩ := by
    unfold specDirs; rw [List.getElem?_map, hd]; rfl
  have hT : Touches (specDirs ds) s = (!d.periodic && (if s.2 then decide (d.id = d.size - 1) else decide (d.id = 0))) := by
    unfold Touches; rw [hE]
  have hO : ∀ x ∈ nodes ds, OnDomainSide (specDirs ds) x s =
      (Touches (specDirs ds) s && decide (x ∈ box (faceBox ds s.1 s.2))) := by
    intro x hx
    have hx := (mem_nodes _ _).1 hx
    have hlen : x.length = ds.length := by
      have := (List.Forall₂.length_eq hx).symm; simpa [nens] using this
    obtain ⟨xi, hxi⟩ : ∃ xi, x[s.1]? = some xi := ⟨_, List.getElem?_eq_getElem (by omega)⟩
    have hm := mem_face ds s.1 s.2 x hs hn
    rw [hT]
    unfold OnDomainSide
    rw [hE, hxi]
    dsimp only
    have : x ∈ box (faceBox ds s.1 s.2) ↔ (if s.2 then xi = d.nen - 1 else xi = 0) := by
      rw [hm]
      constructor
      · rintro ⟨-, d', xi', h1, h2, h3⟩
        rw [hd] at h1; rw [hxi] at h2
        cases h1; cases h2; exact h3
      · intro h; exact ⟨hx, d, xi, hd, hxi, h⟩
    rw [Bool.and_assoc]
    congr 1
    obtain ⟨s1, s2⟩ := s
    cases s2 <;> simp [this]
  rw [List.filter_congr hO]
  cases hTt : Touches (specDirs ds) s
  · simp
  · simp only [Bool.true_and, if_true]
    have hperm : ((nodes ds).filter fun x => decide (x ∈ box (faceBox ds s.1 s.2))).Perm (box (faceBox ds s.1 s.2)) := by
      have hnd : (nodes ds).Nodup := nodup_box _
      rw [List.perm_ext_iff_of_nodup (hnd.filter _) (nodup_box _)]
      intro x
      rw [List.mem_filter, decide_eq_true_eq]
      refine ⟨fun h => h.2, fun h => ⟨?_, h⟩⟩
      rw [mem_nodes]
      exact ((mem_face ds s.1 s.2 x hs hn).1 h).1
    rw [hperm.length_eq]
    obtain ⟨h1, h2⟩ := face_snd ds s.1 s.2 hs
    have := length_box _ h1
    rw [h2, prod_nens] at this
    exact_mod_cast this

/-- **C72**, the loads of one element: for every history of calls on the form, the load vector entries of field `f`, summed
over the nodes of the element, are the sum over the sides of the element on the boundary of the domain of the load in
force times the number of nodes of the side times the area factor. -/
theorem C72_element_load (c : Ctx ℝ) (ops : List (Op ℝ)) (hform : c.form = run create ops)
    (hn : ∀ d ∈ c.dirs, 1 ≤ d.nen) (f : Int) (hf : 0 ≤ f ∧ f < c.dof) :
    ∃ s, build c = .ok s ∧
      ((nodes c.dirs).map fun x => (tableGet s.flux (flat (nens c.dirs) x * c.dof + f)).getD 0).sum =
        ((sides c.dirs.length).map fun q => if Touches (specDirs c.dirs) q then
          (inForce q.1 (if q.2 then 1 else 0) f (loadEvents ops)).getD 0 *
            ((((c.dirs.eraseIdx q.1).map EDir.nen).prod : Nat) * c.area q.1 (if q.2 then 1 else 0)) else 0).sum := by
  obtain ⟨s, e, -, -, -, hget⟩ := C33_flux_list c ops hform hn
  refine ⟨s, e, ?_⟩
  have h1 : ∀ x ∈ nodes c.dirs, (tableGet s.flux (flat (nens c.dirs) x * c.dof + f)).getD 0 =
      ((sides c.dirs.length).map fun q => if OnDomainSide (specDirs c.dirs) x q then
        (inForce q.1 (if q.2 then 1 else 0) f (loadEvents ops)).getD 0 * c.area q.1 (if q.2 then 1 else 0) else 0).sum := by
    intro x hx
    rw [hget x f ((mem_nodes _ _).1 hx) hf]
    suffices h : (loads (specDirs c.dirs) (fun a s k => inForce a s k (loadEvents ops)) c.area x f).sum =
        ((sides c.dirs.length).map fun q => if OnDomainSide (specDirs c.dirs) x q then
        (inForce q.1 (if q.2 then 1 else 0) f (loadEvents ops)).getD 0 * c.area q.1 (if q.2 then 1 else 0) else 0).sum by
      rw [← h]
      cases loads (specDirs c.dirs) (fun a s k => inForce a s k (loadEvents ops)) c.area x f <;> rfl
    unfold loads
    rw [filterMap_sum]
    have hl : (specDirs c.dirs).length = c.dirs.length := by simp [specDirs]
    rw [hl]
    congr 1
    apply List.map_congr_left
    intro q _
    split
    · have hm : ∀ (o : Option ℝ) (v : ℝ), (o.map (· * v)).getD 0 = o.getD 0 * v := by
        rintro (_ | _) v <;> simp
      exact hm _ _
    · rfl
  rw [List.map_congr_left h1, sum_swap]
  congr 1
  apply List.map_congr_left
  intro q hq
  rw [sum_ite, count_side c.dirs hn q (mem_sides.1 hq)]
  cases Touches (specDirs c.dirs) q
  · simp
  · simp; ring

/-! ### No geometry -/

/-- **C72**, no geometry: the shares of the nodes of a side add up to the area of the side of the element in parametric
space (`detJac` is half the length of the element). -/
theorem C72_parametric (ds : List ADir) (h1 : 1 ≤ ds.length) (h3 : ds.length ≤ 3) (hn : ∀ d ∈ ds, 1 ≤ d.nen)
    (Cx Cw : Nat → ℝ) (rational : Bool) (dir : Nat) (hd : dir < ds.length) (side : Bool) :
    ((((ds.eraseIdx dir).map ADir.nen).prod : Nat) : ℝ) * boundaryArea ds 0 Cx rational Cw dir side =
      ((ds.eraseIdx dir).map fun d => 2 * d.detJac).prod := by
  match ds, h1, h3 with
  | [d0], _, _ =>
    obtain rfl : dir = 0 := by simpa using hd
    simp [boundaryArea]
  | [d0, d1], _, _ =>
    have n0 : (d0.nen : ℝ) ≠ 0 := by have := hn d0 (by simp); positivity
    have n1 : (d1.nen : ℝ) ≠ 0 := by have := hn d1 (by simp); positivity
    have hd : dir < 2 := hd
    interval_cases dir <;> simp [boundaryArea, share] <;> field_simp
  | [d0, d1, d2], _, _ =>
    have n0 : (d0.nen : ℝ) ≠ 0 := by have := hn d0 (by simp); positivity
    have n1 : (d1.nen : ℝ) ≠ 0 := by have := hn d1 (by simp); positivity
    have n2 : (d2.nen : ℝ) ≠ 0 := by have := hn d2 (by simp); positivity
    have hd : dir < 3 := hd
    interval_cases dir <;> simp [boundaryArea, share] <;> field_simp <;> norm_num
  | _ :: _ :: _ :: _ :: _, _, h3 => simp at h3; omega

/-! ### The whole mesh -/

open PetIGA.Ax

/-- The element `e` of the mesh of the axes `axs`: in each direction, the data the boundary conditions (`EDir`) and the
quadrature (`ADir`) of the element hold. -/
def ElementOf : List (Axis ℝ) → List Int → List EDir → List ADir → Prop
  | [], [], [], [] => True
  | ax :: axs, e :: es, d :: ds, a :: as =>
    (0 ≤ e ∧ e < ax.span.length ∧ (d.nen : Int) = ax.p + 1 ∧ a.nen = d.nen ∧ d.id = e ∧ d.size = ax.span.length ∧
      d.periodic = ax.periodic ∧ ∀ k, ax.span[e.toNat]? = some k → a.detJac = (ax.U (k+1) - ax.U k) / 2) ∧
    ElementOf axs es ds as
  | _, _, _, _ => False

/-- The elements of the mesh. -/
def elements (axs : List (Axis ℝ)) : List (List Int) := box (axs.map fun ax => ((0 : Int), (ax.span.length : Int)))

/-- Length of element `e`. -/
noncomputable def len (ax : Axis ℝ) (e : Int) : ℝ := match ax.span[e.toNat]? with
  | some k => ax.U (k+1) - ax.U k
  | none => 0

/-- Element `e` touches the side. -/
noncomputable def ind (ax : Axis ℝ) (side : Bool) (e : Int) : ℝ :=
  if !ax.periodic && (if side then decide (e = (ax.span.length : Int) - 1) else decide (e = 0)) then 1 else 0

/-- The factors of the contribution of an element to a side. -/
noncomputable def factors : List (Axis ℝ) → Nat → Bool → List (Nat × (Int → ℝ))
  | [], _, _ => []
  | ax :: axs, 0, b => (ax.span.length, ind ax b) :: axs.map fun ax => (ax.span.length, len ax)
  | ax :: axs, k+1, b => (ax.span.length, len ax) :: factors axs k b

theorem box_sum : ∀ l : List (Nat × (Int → ℝ)),
    ((box (l.map fun x => ((0 : Int), (x.1 : Int)))).map fun e => (List.zipWith (fun x i => x.2 i) l e).prod).sum =
      (l.map fun x => ((List.range x.1).map fun (k : Nat) => x.2 k).sum).prod
  | [] => by simp [box]
  | x :: l => by
    have hflat : ∀ (L : List (List Int)) (g : List Int → List (List Int)) (F : List Int → ℝ),
        ((L.flatMap g).map F).sum = (L.map fun is => ((g is).map F).sum).sum := by
      intro L g F
      induction L with
      | nil => rfl
      | cons a L ih => simp [List.flatMap_cons, ih]
    simp only [List.map_cons, box, Int.toNat_natCast, List.prod_cons]
    rw [hflat, ← box_sum l, ← List.sum_map_mul_left]
    congr 1
    apply List.map_congr_left
    intro is _
    rw [List.map_map, ← List.sum_map_mul_right]
    congr 1
    apply List.map_congr_left
    intro k _
    simp

theorem plain_factors : ∀ (axs : List (Axis ℝ)) (e : List Int) (ds : List EDir) (as : List ADir), ElementOf axs e ds as →
    (as.map fun d => 2 * d.detJac).prod =
      (List.zipWith (fun x i => x.2 i) (axs.map fun ax => ((ax.span.length : Nat), len ax)) e).prod
  | [], [], [], [], _ => by simp
  | ax :: axs, e :: es, d :: ds, a :: as, h => by
    obtain ⟨⟨h0, hl, -, -, -, -, -, hk⟩, h⟩ := h
    simp only [List.map_cons, List.prod_cons, List.zipWith_cons_cons]
    rw [plain_factors axs es ds as h]
    congr 1
    have hlt : e.toNat < ax.span.length := by omega
    unfold len
    rw [List.getElem?_eq_getElem hlt]
    rw [hk _ (List.getElem?_eq_getElem hlt)]
    ring

theorem side_factors : ∀ (axs : List (Axis ℝ)) (e : List Int) (ds : List EDir) (as : List ADir), ElementOf axs e ds as →
    ∀ (k : Nat) (b : Bool), k < axs.length →
    (if Touches (specDirs ds) (k, b) then ((as.eraseIdx k).map fun d => 2 * d.detJac).prod else 0) =
      (List.zipWith (fun x i => x.2 i) (factors axs k b) e).prod
  | [], [], [], [], _, k, b, hk => by simp at hk
  | ax :: axs, e :: es, d :: ds, a :: as, h, 0, b, _ => by
    obtain ⟨⟨h0, hl, -, -, hid, hsz, hper, hk⟩, h⟩ := h
    simp only [factors, List.zipWith_cons_cons, List.prod_cons, List.eraseIdx_zero, List.tail_cons]
    rw [← plain_factors axs es ds as h]
    have : Touches (specDirs (d :: ds)) (0, b) =
        (!ax.periodic && (if b then decide (e = (ax.span.length : Int) - 1) else decide (e = 0))) := by
      unfold Touches specDirs
      simp only [List.map_cons, List.getElem?_cons_zero, hid, hsz, hper]
    rw [this]
    unfold ind
    split <;> simp
  | ax :: axs, e :: es, d :: ds, a :: as, h, k+1, b, hk' => by
    have h' := h
    obtain ⟨⟨h0, hl, -, -, hid, hsz, hper, hk⟩, h⟩ := h
    simp only [factors, List.zipWith_cons_cons, List.prod_cons, List.eraseIdx_cons_succ, List.map_cons]
    rw [← side_factors axs es ds as h k b (by simpa using hk')]
    have : Touches (specDirs (d :: ds)) (k+1, b) = Touches (specDirs ds) (k, b) := by
      unfold Touches specDirs; simp
    rw [this]
    have hlt : e.toNat < ax.span.length := by omega
    have e2 : len ax e = 2 * a.detJac := by
      unfold len
      rw [List.getElem?_eq_getElem hlt, hk _ (List.getElem?_eq_getElem hlt)]
      ring
    rw [e2]
    split <;> simp

theorem len_sum (ax : Axis ℝ) : ((List.range ax.span.length).map fun (k : Nat) => len ax k).sum =
    (ax.span.map fun k => ax.U (k+1) - ax.U k).sum := by
  congr 1
  apply List.ext_getElem
  · simp
  · intro i h1 h2
    simp only [List.length_map, List.length_range] at h1
    simp [len, List.getElem?_eq_getElem h1]

theorem ind_sum (ax : Axis ℝ) (b : Bool) (h : 1 ≤ ax.span.length) :
    ((List.range ax.span.length).map fun (k : Nat) => ind ax b k).sum = if ax.periodic then 0 else 1 := by
  have key : ∀ (n j : Nat), j < n → ((List.range n).map fun (k : Nat) => if (k : Int) = j then (1:ℝ) else 0).sum = 1 := by
    intro n j hj
    have := Finset.sum_ite_eq' (Finset.range n) j (fun _ => (1:ℝ))
    rw [if_pos (Finset.mem_range.2 hj)] at this
    rw [← List.sum_toFinset _ List.nodup_range]
    refine Eq.trans ?_ this
    apply Finset.sum_congr
    · ext; simp
    · intro x _; simp only [Nat.cast_inj]
  cases hp : ax.periodic
  · rw [if_neg (by simp)]
    cases b
    · rw [← key ax.span.length 0 h]
      congr 1
      apply List.map_congr_left
      intro k _
      unfold ind
      simp [hp]
    · rw [← key ax.span.length (ax.span.length - 1) (by omega)]
      congr 1
      apply List.map_congr_left
      intro k _
      unfold ind
      rw [hp, Nat.cast_sub h]
      simp
  · rw [if_pos rfl]
    have : ∀ k : Nat, ind ax b k = 0 := by intro k; simp [ind, hp]
    simp [this]

theorem factors_sum : ∀ (axs : List (Axis ℝ)) (k : Nat) (b : Bool), k < axs.length → (∀ ax ∈ axs, 1 ≤ ax.span.length) →
    ((factors axs k b).map fun x => ((List.range x.1).map fun (k : Nat) => x.2 k).sum).prod =
      (match axs[k]? with | some ax => if ax.periodic then 0 else 1 | none => 0) *
        ((axs.eraseIdx k).map fun ax => (ax.span.map fun k => ax.U (k+1) - ax.U k).sum).prod
  | [], k, b, h, _ => by simp at h
  | ax :: axs, 0, b, _, hn => by
    simp only [factors, List.map_cons, List.prod_cons, List.map_map, Function.comp_def, List.getElem?_cons_zero,
      List.eraseIdx_zero, List.tail_cons]
    rw [ind_sum ax b (hn ax (by simp))]
    congr 2
    apply List.map_congr_left
    intro a _
    exact len_sum a
  | ax :: axs, k+1, b, h, hn => by
    simp only [factors, List.map_cons, List.prod_cons, List.getElem?_cons_succ, List.eraseIdx_cons_succ]
    rw [factors_sum axs k b (by simpa using h) (fun a ha => hn a (by simp [ha])), len_sum]
    ring

theorem factors_shape : ∀ (axs : List (Axis ℝ)) (k : Nat) (b : Bool),
    (factors axs k b).map (fun x => ((0 : Int), (x.1 : Int))) = axs.map fun ax => ((0 : Int), (ax.span.length : Int))
  | [], _, _ => rfl
  | ax :: axs, 0, b => by simp [factors, Function.comp_def]
  | ax :: axs, k+1, b => by simp [factors, factors_shape axs k b]

theorem elementOf_len : ∀ (axs : List (Axis ℝ)) (e : List Int) (ds : List EDir) (as : List ADir), ElementOf axs e ds as →
    ds.length = axs.length ∧ as.length = axs.length ∧ (∀ k, ((as.eraseIdx k).map ADir.nen) = (ds.eraseIdx k).map EDir.nen)
  | [], [], [], [], _ => by simp
  | ax :: axs, e :: es, d :: ds, a :: as, h => by
    obtain ⟨⟨-, -, -, h4, -⟩, h⟩ := h
    obtain ⟨i1, i2, i3⟩ := elementOf_len axs es ds as h
    refine ⟨by simp [i1], by simp [i2], ?_⟩
    intro k
    have hall : as.map ADir.nen = ds.map EDir.nen := by
      have := i3 (as.length)
      rwa [List.eraseIdx_of_length_le (le_refl _), List.eraseIdx_of_length_le (by omega)] at this
    cases k with
    | zero => simpa using hall
    | succ k => simp [h4, i3 k]

theorem elementOf_nen : ∀ (axs : List (Axis ℝ)) (e : List Int) (ds : List EDir) (as : List ADir), ElementOf axs e ds as →
    (∀ ax ∈ axs, 1 ≤ ax.p) → (∀ d ∈ ds, 1 ≤ d.nen) ∧ ∀ a ∈ as, 1 ≤ a.nen
  | [], [], [], [], _, _ => by simp
  | ax :: axs, e :: es, d :: ds, a :: as, h, hp => by
    obtain ⟨⟨-, -, h3, h4, -⟩, h⟩ := h
    obtain ⟨i1, i2⟩ := elementOf_nen axs es ds as h (fun a ha => hp a (by simp [ha]))
    have := hp ax (by simp)
    refine ⟨?_, ?_⟩
    · intro d' hd; rcases List.mem_cons.1 hd with rfl | hd
      · omega
      · exact i1 _ hd
    · intro d' hd; rcases List.mem_cons.1 hd with rfl | hd
      · omega
      · exact i2 _ hd

/-- **C72**, whole mesh without geometry: for axes of any legal knots with at least one element, any number of fields,
and any history of calls on the form, the load vectors of all elements are built, and what they put on field `f`, summed
over the elements and their nodes, is the sum over the sides of the domain that are not periodic of the load in force
times the area of the side: every load is applied in full, once. -/
theorem C72_mesh_load (axs : List (Axis ℝ)) (hwf : ∀ ax ∈ axs, WF ax) (hne : ∀ ax ∈ axs, 1 ≤ ax.span.length)
    (h1 : 1 ≤ axs.length) (h3 : axs.length ≤ 3) (ops : List (Form.Op ℝ)) (c : List Int → Ctx ℝ) (A : List Int → List ADir)
    (Cx Cw : Nat → ℝ) (rational : Bool) (f : Int) (hf : 0 ≤ f)
    (hc : ∀ e ∈ elements axs, ElementOf axs e (c e).dirs (A e) ∧ (c e).form = run Form.create ops ∧ f < (c e).dof ∧
      ∀ (i : Nat) (b : Bool), (c e).area i (if b then 1 else 0) = boundaryArea (A e) 0 Cx rational Cw i b) :
    ∃ s : List Int → Fixes ℝ, (∀ e ∈ elements axs, build (c e) = .ok (s e)) ∧
      ((elements axs).map fun e => ((nodes (c e).dirs).map fun x =>
          (tableGet (s e).flux (flat (nens (c e).dirs) x * (c e).dof + f)).getD 0).sum).sum =
        ((sides axs.length).map fun q => match axs[q.1]? with
          | some ax => if ax.periodic then 0 else
            (inForce q.1 (if q.2 then 1 else 0) f (loadEvents ops)).getD 0 *
              ((axs.eraseIdx q.1).map fun ax => ax.U (ax.m - ax.p) - ax.U ax.p).prod
          | none => 0).sum := by
  classical
  have hp : ∀ ax ∈ axs, 1 ≤ ax.p := fun ax h => (hwf ax h).legal.1
  have hel : ∀ e ∈ elements axs, ∃ s, build (c e) = .ok s ∧
      ((nodes (c e).dirs).map fun x => (tableGet s.flux (flat (nens (c e).dirs) x * (c e).dof + f)).getD 0).sum =
        ((sides axs.length).map fun q => (inForce q.1 (if q.2 then 1 else 0) f (loadEvents ops)).getD 0 *
          (List.zipWith (fun x i => x.2 i) (factors axs q.1 q.2) e).prod).sum := by
    intro e he
    obtain ⟨hE, hform, hdof, hA⟩ := hc e he
    obtain ⟨l1, l2, l3⟩ := elementOf_len axs e _ _ hE
    obtain ⟨n1, n2⟩ := elementOf_nen axs e _ _ hE hp
    obtain ⟨s, es, h⟩ := C72_element_load (c e) ops hform n1 f ⟨hf, hdof⟩
    refine ⟨s, es, ?_⟩
    rw [h, l1]
    congr 1
    apply List.map_congr_left
    intro q hq
    have hq := mem_sides.1 hq
    rw [← side_factors axs e _ _ hE q.1 q.2 hq, hA, ← l3 q.1,
      C72_parametric (A e) (by omega) (by omega) n2 Cx Cw rational q.1 (by omega) q.2]
    split <;> simp
  haveI : Nonempty (Fixes ℝ) := ⟨⟨[], []⟩⟩
  choose! s hs using hel
  refine ⟨s, fun e he => (hs e he).1, ?_⟩
  rw [List.map_congr_left fun e he => (hs e he).2, sum_swap]
  congr 1
  apply List.map_congr_left
  intro q hq
  have hq := mem_sides.1 hq
  rw [List.sum_map_mul_left]
  have := box_sum (factors axs q.1 q.2)
  rw [factors_shape, factors_sum axs q.1 q.2 hq hne] at this
  unfold elements
  rw [this, List.getElem?_eq_getElem hq]
  dsimp only
  have e : ((axs.eraseIdx q.1).map fun ax => (ax.span.map fun k => ax.U (k+1) - ax.U k).sum) =
      (axs.eraseIdx q.1).map fun ax => ax.U (ax.m - ax.p) - ax.U ax.p := by
    apply List.map_congr_left
    intro ax hax
    have w := hwf ax (List.mem_of_mem_eraseIdx hax)
    obtain ⟨g1, g2, g3, -⟩ := w.legal
    rw [w.span]
    exact Quad.sum_lengths g3 g1 g2
  rw [e]
  split <;> simp

/-! ### The hypotheses are met -/

/-- Every element of every mesh has such data. -/
theorem element_exists : ∀ (axs : List (Axis ℝ)), (∀ ax ∈ axs, 1 ≤ ax.p) → ∀ e ∈ elements axs, ∃ ds as, ElementOf axs e ds as
  | [], _, e, he => by
    simp only [elements, List.map_nil, box, List.mem_singleton] at he
    subst he
    exact ⟨[], [], trivial⟩
  | ax :: axs, hp, e, he => by
    have hb := (mem_box _ _).1 he
    simp only [List.map_cons] at hb
    cases hb with
    | @cons _ _ e _ _ es h1 h2 =>
      obtain ⟨ds, as, h⟩ := element_exists axs (fun a ha => hp a (by simp [ha])) es ((mem_box _ _).2 h2)
      have := hp ax (by simp)
      refine ⟨⟨(ax.p+1).toNat, 0, e, ax.span.length, ax.periodic⟩ :: ds,
        ⟨(ax.p+1).toNat, 0, len ax e / 2, fun _ => 0, fun _ _ _ => 0⟩ :: as, ⟨?_, ?_, ?_, rfl, rfl, rfl, rfl, ?_⟩, h⟩
      · omega
      · omega
      · dsimp only; omega
      · intro k hk
        simp only [len, hk]

/-- Two elements of length 1 in one direction and a mesh of any legal knots in the other. -/
example (ax : Axis ℝ) (hwf : WF ax) (hne : 1 ≤ ax.span.length) :
    ∃ (ax0 : Axis ℝ) (ops : List (Form.Op ℝ)) (c : List Int → Ctx ℝ) (A : List Int → List ADir),
      (∀ a ∈ [ax0, ax], WF a) ∧ (∀ a ∈ [ax0, ax], 1 ≤ a.span.length) ∧
      inForce 0 0 0 (loadEvents ops) = some (3:ℝ) ∧
      ∀ e ∈ elements [ax0, ax], ElementOf [ax0, ax] e (c e).dirs (A e) ∧ (c e).form = run Form.create ops ∧
        (0:Int) < (c e).dof ∧ ∀ (i : Nat) (b : Bool), (c e).area i (if b then 1 else 0) =
          boundaryArea (A e) 0 (fun _ => 0) false (fun _ => 0) i b := by
  classical
  set U : Int → ℝ := fun i => if i ≤ 1 then 0 else if i = 2 then 1 else 2 with hU
  have hl : LegalKnots 1 4 U := by
    refine ⟨by omega, by omega, ?_, ?_⟩
    · intro i h0 h1
      interval_cases i <;> simp [hU]
    · intro i hi hj
      have h4 : i ≤ 2 := by omega
      interval_cases i <;> simp [hU]
  set ax0 : Axis ℝ := (setKnots { Ax.create (fun _ => 0) with p := 1 } 4 U).2 with hax0
  have hok : (setKnots { Ax.create (fun _ => (0:ℝ)) with p := 1 } 4 U).1 = .ok () := (C05_accepts_exactly_legal _ _ _).2 hl
  have w0 : WF ax0 := setKnots_wf _ _ _ hok
  have hne0 : 1 ≤ ax0.span.length := by
    obtain ⟨em, eU, ep, -⟩ := (C05_effect { Ax.create (fun _ => (0:ℝ)) with p := 1 } 4 U).1 hok
    have hs := w0.span
    rw [hs]
    obtain ⟨g1, g2, g3, -⟩ := w0.legal
    have := ((computeSpans_spec g3 g1 (by omega)).1 1).2 (by
      refine ⟨?_, ?_, ?_⟩
      · rw [hax0, ep]
      · rw [hax0, ep, em]; dsimp only; omega
      · rw [hax0, eU]; simp [hU])
    exact List.length_pos_of_mem this
  have hall : ∀ a ∈ [ax0, ax], WF a := by simp [w0, hwf]
  have hex := element_exists [ax0, ax] (fun a ha => (hall a ha).legal.1)
  haveI : Nonempty (List EDir) := ⟨[]⟩
  haveI : Nonempty (List ADir) := ⟨[]⟩
  choose! ds as hE using hex
  refine ⟨ax0, [.setLoad 0 0 0 3], fun e => ⟨ds e, 1, run Form.create [.setLoad 0 0 0 3], none, fun a => a,
    fun i b => boundaryArea (as e) 0 (fun _ => 0) false (fun _ => 0) i.toNat (decide (b = 1))⟩, as, hall,
    by simp [hne0, hne], ?_, ?_⟩
  · rfl
  · intro e he
    refine ⟨hE e he, rfl, by simp, ?_⟩
    intro i b
    cases b <;> rfl

/-- The linear element of the unit interval with one point. -/
noncomputable def exLin : ADir := ⟨2, 1, 1/2, fun _ => 2, fun j _ a => if j = 0 then 1/2 else if a = 0 then -1 else 1⟩
/-- Its functions. -/
noncomputable def exHat : Fin exLin.nen → ℝ → ℝ := fun a u => if (a : Nat) = 0 then 1 - u else u

theorem exLin_tab : Tabulates exLin exHat (fun _ => 1/2) := by
  intro q a
  have : a = (0 : Fin 2) ∨ a = (1 : Fin 2) := by
    have := a.2
    change a.1 < 2 at this
    rcases (show a.1 = 0 ∨ a.1 = 1 by omega) with h | h
    · left; exact Fin.ext h
    · right; exact Fin.ext h
  rcases this with rfl | rfl
  · refine ⟨by simp [exLin, exHat]; norm_num, ?_⟩
    have : HasDerivAt (fun u : ℝ => 1 - u) (-1) (1/2) := by
      simpa using (hasDerivAt_id (1/2 : ℝ)).const_sub 1
    have e : exHat (0 : Fin 2) = fun u : ℝ => 1 - u := by funext u; rfl
    change HasDerivAt (exHat (0 : Fin 2)) _ _
    rw [e]
    exact this
  · refine ⟨by simp [exLin, exHat], ?_⟩
    have : HasDerivAt (fun u : ℝ => u) 1 (1/2) := hasDerivAt_id _
    have e : exHat (1 : Fin 2) = fun u : ℝ => u := by funext u; rfl
    change HasDerivAt (exHat (1 : Fin 2)) _ _
    rw [e]
    exact this

theorem exLin_end : EndAt exLin exHat false 0 ∧ EndAt exLin exHat true 1 := by
  constructor <;> intro a <;>
  · have := a.2
    change a.1 < 2 at this
    rcases (show a.1 = 0 ∨ a.1 = 1 by omega) with h | h <;> simp [exHat, exLin, h]

/-- The hypotheses of the theorems with a geometry: a rational bilinear element. -/
example : Tabulates exLin exHat (fun _ => 1/2) ∧ EndAt exLin exHat false 0 ∧ 1 ≤ exLin.nen ∧
    (true = true → ∀ _q : Fin exLin.nqp, ∑ a : Fin exLin.nen, ∑ b : Fin exLin.nen,
      (fun _ => 3 : Nat → ℝ) (a + exLin.nen * b) * (exHat a 0 * exHat b (1/2)) ≠ 0) := by
  refine ⟨exLin_tab, exLin_end.1, by simp [exLin], fun _ _ => ?_⟩
  change ∑ a : Fin 2, ∑ b : Fin 2, (3:ℝ) * ((if (a : Nat) = 0 then 1 - 0 else 0) * (if (b : Nat) = 0 then 1 - 1/2 else 1/2)) ≠ 0
  simp only [Fin.sum_univ_two]
  norm_num

/-! ### What does not hold -/

/-- Knots of a quadratic direction with two elements. -/
noncomputable def exU : Int → ℝ := fun i => if i ≤ 2 then 0 else if i = 3 then 1 else 2

/-- **C72**, the load on a node is not the integral of its basis function: on the first of two elements of a quadratic
direction the third function has integral `1/6`, and its node receives `1/3` of a unit load. -/
theorem C72_consistent_refuted : ∃ d1 : ADir, d1.nen = 3 ∧ d1.detJac = (exU 3 - exU 2) / 2 ∧
    ∀ (d0 : ADir) (Cx Cw : Nat → ℝ) (rational side : Bool),
      boundaryArea [d0, d1] 0 Cx rational Cw 0 side = 1/3 ∧ ∫ u in exU 2..exU 3, bspline exU 2 2 u = 1/6 := by
  refine ⟨⟨3, 0, (exU 3 - exU 2) / 2, fun _ => 0, fun _ _ _ => 0⟩, rfl, rfl, ?_⟩
  intro d0 Cx Cw rational side
  have e2 : exU 2 = 0 := by simp [exU]
  have e3 : exU 3 = 1 := by simp [exU]
  have e4 : exU 4 = 2 := by simp [exU]
  have e5 : exU 5 = 2 := by simp [exU]
  constructor
  · simp [boundaryArea, share, e2, e3]; norm_num
  · rw [e2, e3]
    have : ∀ u ∈ Set.uIcc (0:ℝ) 1, bspline exU 2 2 u = u^2 / 2 := by
      intro u hu
      rw [Set.uIcc_of_le (by norm_num)] at hu
      obtain ⟨h0, h1⟩ := hu
      simp only [bspline, e2, e3, e4, e5, Int.reduceAdd, Nat.cast_zero, Nat.cast_one, add_zero]
      rcases lt_or_eq_of_le h1 with h | h
      · have h2 : ¬ (1 ≤ u) := not_le.2 h
        simp [h0, h, h2]
        ring
      · subst h
        norm_num
    rw [intervalIntegral.integral_congr this]
    simp
    norm_num

/-- The control points of the unit square in the plane `z = 0`, three coordinates each. -/
def exSquare : Nat → ℝ := fun k => if k = 3 ∨ k = 7 ∨ k = 9 ∨ k = 10 then 1 else 0

/-- **C72**, surfaces in space: the kernels take the control points to have as many coordinates as the domain has
dimensions.  On the unit square embedded in space the edge `x = 0` has length 1, and the load on it is dropped. -/
theorem C72_manifold_refuted :
    (∀ (t : ℝ) (i : Fin 3), combine false (fun _ : Fin 2 × Fin 2 => 1) (fun a => exHat a.1 0 * exHat a.2 t)
      (fun a => exSquare (i + 3 * (a.1 + 2 * a.2))) = if i = 1 then t else 0) ∧
    ∀ (d0 d1 : ADir) (Cw : Nat → ℝ), d0.nen = 2 → d1.nen = 2 → boundaryArea [d0, d1] 3 exSquare false Cw 0 false = 0 := by
  constructor
  · intro t i
    have : ∀ f : Fin 2 × Fin 2 → ℝ, ∑ a, f a = f (0,0) + f (0,1) + (f (1,0) + f (1,1)) := by
      intro f; rw [Fintype.sum_prod_type]; simp [Fin.sum_univ_two]
    simp only [combine, Bool.false_eq_true, if_false]
    rw [this]
    fin_cases i <;> simp [exHat, exSquare]
  · intro d0 d1 Cw h0 h1
    have hz : ∀ (b : Fin d1.nen) (i : Fin 2), exSquare (i + 2 * node2 d0.nen d1.nen 0 false b) = 0 := by
      intro b i
      have hb : b.1 < 2 := lt_of_lt_of_eq b.2 h1
      have hi := i.2
      simp only [node2, if_true, layer, Bool.false_eq_true, if_false, h0, exSquare]
      rw [if_neg (by omega)]
    unfold boundaryArea
    simp only [List.length_cons, List.length_nil, if_true]
    rw [if_neg (by decide), if_neg (by decide)]
    have : area2D d0.nen d1.nen 0 false exSquare false Cw d1 = 0 := by
      unfold area2D
      apply Finset.sum_eq_zero
      intro q _
      dsimp only
      simp only [hz]
      rw [jac1]
      simp
    rw [this, mul_zero]

end PetIGA.Area
