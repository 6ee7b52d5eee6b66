import Verif.Props.GlobalDriver
import Verif.Props.Dirichlet
import Verif.Props.BlockElem
import Verif.Props.Probe
/-! C80, C81: what a zero of the assembled residual, or a solution of the assembled system, is. -/
set_option linter.unusedSectionVars false
namespace PetIGA.Drv
open PetIGA.Ax PetIGA.Lay PetIGA.Asm PetIGA.Grid PetIGA.Spec PetIGA.Part
open PetIGA.Fix hiding nens

variable {K : Type} [Field K] [LinearOrder K] [IsStrictOrderedRing K]
variable {V P : Type} [CommRing V]

/-! ### The elements with their boundary conditions -/

/-- Element `e` of the grid inside the element loop of a Galerkin discretisation: its lists of constrained and loaded
unknowns are those `IGAElementBuildFix` builds (`Fix.build`) for the conditions in force after the calls `ops` on the
form, and the fix table, when set, is the ghosted copy of the nodal field `UG`. -/
structure Built (axs : List (Axis K)) (ops : List (Form.Op V)) (dof : Nat) (UG : Option (List Int → Int → V)) (e : List Int)
    (E : Elt V P) : Prop where
  index : 0 ≤ E.index
  galerkin : E.neq = E.nen
  nen : E.nen = (indices (nens axs)).length
  fields : E.dof = dof
  lists : ∃ c : Ctx V, c.dirs = elemDirs axs e ∧ c.dof = dof ∧ c.form = Form.run Form.create ops ∧
    IsGhosted c (UG.map fun G X f => G (wrapNode axs X) f) ∧ build c = .ok E.fixes

/-- Number of elements and local functions at node `z`. -/
def multiplicity (axs : List (Axis K)) (z : List Int) : Nat :=
  ((indices (axs.map Axis.nel)).map fun e => ((indices (nens axs)).map fun t => if nodeOf false axs e t = z then 1 else 0).sum).sum

/-- The nodal field `u` with the prescribed values in place of those of the constrained unknowns. -/
def imposed (axs : List (Axis K)) (ops : List (Form.Op V)) (UG : Option (List Int → Int → V)) (u : List Int → Nat → V) :
    List Int → Nat → V := fun x c => (prescribedAt axs ops UG (x, (c:Int))).getD (u x c)

/-- The nodal field `v` with zero in place of the values of the constrained unknowns. -/
def freeRates (axs : List (Axis K)) (ops : List (Form.Op V)) (UG : Option (List Int → Int → V)) (v : List Int → Nat → V) :
    List Int → Nat → V := fun x c => if (prescribedAt axs ops UG (x, (c:Int))).isSome then 0 else v x c

/-- The boundary loads, summed over the elements. -/
def loads (axs : List (Axis K)) (dof : Nat) (elt : List Int → Elt V P) : List Int → Nat → V :=
  sumVec axs dof fun e i => (tableGet (elt e).fixes.flux i).getD 0

/-- The weak form: the integrals of `R` over all elements, tested with the functions at a node.  No boundary conditions. -/
def weak (axs : List (Axis K)) (dof : Nat) (elt : List Int → Elt V P) (R : List Int → P → Int → V) : List Int → Nat → V :=
  sumVec axs dof fun e i => integral (elt e) fun p => R e p i

/-! ### Geometry of the grid -/

theorem firstNode_eq {ax : Axis K} (h : PreWF ax) {e : Int} (h0 : 0 ≤ e) (h1 : e < ax.nel) : firstNode false ax e = sp ax e - ax.p := by
  unfold firstNode spanOf shiftOf
  simp only [Bool.false_eq_true, if_false]
  rw [spanAt_ok h h0 h1]
  simp

theorem node_eq : ∀ {axs : List (Axis K)}, (∀ ax ∈ axs, WF ax) → ∀ {e t : List Int}, InBox (axs.map Axis.nel) e → InBox (nens axs) t →
    nodeOf false axs e t = wrapNode axs (gridNode (elemDirs axs e) t)
  | [], _, _, _, _, _ => rfl
  | ax :: axs, hw, _, _, he, ht => by
    unfold nens at ht
    simp only [List.map_cons] at he ht
    cases he with
    | @cons _ e0 _ e he0 he' =>
      cases ht with
      | @cons _ t0 _ t ht0 ht' =>
        have ih := node_eq (axs := axs) (fun a ha => hw a (by simp [ha])) he' ht'
        have h := hw ax (by simp)
        have hs := sp_elem h.toPreWF he0.1 he0.2
        have hb := nnp_bounds h
        have hf := firstNode_eq h.toPreWF he0.1 he0.2
        simp only [nodeOf, firstNodes, List.zipWith_cons_cons, plus, modAll, List.map_cons, wrapNode, gridNode, elemDirs] at ih ⊢
        rw [ih]
        congr 1
        rw [hf]
        show (sp ax e0 - ax.p + t0) % ax.nnp = if ax.periodic then (sp ax e0 - ax.p + t0) % ax.nnp else sp ax e0 - ax.p + t0
        cases hp : ax.periodic
        · simp only [Bool.false_eq_true, if_false]
          have := hb.2.2.1 hp
          obtain ⟨s1, s2, -⟩ := hs
          exact Int.emod_eq_of_lt (by omega) (by omega)
        · simp

theorem elemNens : ∀ {axs : List (Axis K)}, (∀ ax ∈ axs, WF ax) → ∀ {e : List Int}, InBox (axs.map Axis.nel) e →
    Fix.nens (elemDirs axs e) = Asm.nens axs
  | [], _, _, _ => rfl
  | ax :: axs, hw, _, he => by
    simp only [List.map_cons] at he
    cases he with
    | @cons _ e0 _ e he0 he' =>
      have ih := elemNens (axs := axs) (fun a ha => hw a (by simp [ha])) he'
      have := (hw ax (by simp)).legal.degree
      simp only [elemDirs, Fix.nens, Asm.nens, List.zipWith_cons_cons, List.map_cons] at ih ⊢
      rw [ih]
      congr 1
      omega

theorem elemRange : ∀ {axs : List (Axis K)}, (∀ ax ∈ axs, WF ax) → ∀ {e : List Int}, InBox (axs.map Axis.nel) e →
    List.Forall₂ (fun (ax : Axis K) (id : Int) => 0 ≤ id ∧ id < ax.span.length) axs e
  | [], _, _, he => by cases he; exact .nil
  | ax :: axs, hw, _, he => by
    simp only [List.map_cons] at he
    cases he with
    | @cons _ e0 _ e he0 he' =>
      have := (hw ax (by simp)).toPreWF.nel
      exact .cons ⟨he0.1, by omega⟩ (elemRange (fun a ha => hw a (by simp [ha])) he')

theorem indices_length {axs : List (Axis K)} (hw : ∀ ax ∈ axs, WF ax) : ((indices (nens axs)).length : Int) = prod (nens axs) := by
  rw [indices_box, length_box]
  · rw [List.map_map]; simp [Function.comp_def]
  · intro p hp
    rw [List.mem_map] at hp
    obtain ⟨n, hn, rfl⟩ := hp
    unfold nens at hn
    rw [List.mem_map] at hn
    obtain ⟨ax, ha, rfl⟩ := hn
    have := (hw ax ha).legal.degree
    show 0 ≤ ax.p + 1
    omega

/-- Every node of the grid belongs to some element. -/
theorem node_covered : ∀ {axs : List (Axis K)}, (∀ ax ∈ axs, WF ax) → (∀ ax ∈ axs, Condition false ax) → ∀ {z : List Int},
    InBox (axs.map Axis.nnp) z → ∃ e t, InBox (axs.map Axis.nel) e ∧ InBox (nens axs) t ∧ nodeOf false axs e t = z
  | [], _, _, _, hz => by cases hz; exact ⟨[], [], .nil, .nil, rfl⟩
  | ax :: axs, hw, hc, _, hz => by
    simp only [List.map_cons] at hz
    cases hz with
    | @cons _ z0 _ z hz0 hz' =>
      obtain ⟨e, t, i1, i2, i3⟩ := node_covered (axs := axs) (fun a ha => hw a (by simp [ha])) (fun a ha => hc a (by simp [ha])) hz'
      have h := hw ax (by simp)
      obtain ⟨c1, c2⟩ := (hc ax (by simp)).1 rfl
      have hp := h.legal.degree
      have hm := h.legal.enough
      obtain ⟨k, k0, k1, -⟩ := mem_sp h.toPreWF (k := ax.p) ⟨le_refl _, by omega, c1⟩
      have f0 := sp_first h.toPreWF (by omega) c1
      have f1 := sp_last h.toPreWF (by omega) c2
      have hb := nnp_bounds h
      obtain ⟨e', a1, a2, a3, a4⟩ := Blk.gal_search h.toPreWF (v := z0) (ax.nel - 1).toNat 0 (le_refl _) (by omega) (by omega) (by
        rw [show (0:Int) + ((ax.nel - 1).toNat : Int) = ax.nel - 1 by omega]; omega)
      refine ⟨e' :: e, (z0 - (sp ax e' - ax.p)) :: t, ?_, ?_, ?_⟩
      · simp only [List.map_cons]; exact .cons ⟨by omega, by omega⟩ i1
      · unfold nens; simp only [List.map_cons]; exact .cons ⟨by omega, by omega⟩ i2
      · have hf := firstNode_eq h.toPreWF (e := e') (by omega) (by omega)
        simp only [nodeOf, firstNodes, List.zipWith_cons_cons, plus, modAll, List.map_cons] at i3 ⊢
        rw [i3, hf]
        congr 1
        rw [show sp ax e' - ax.p + (z0 - (sp ax e' - ax.p)) = z0 by ring]
        exact Int.emod_eq_of_lt hz0.1 hz0.2

variable {g2 : Guess2} {g3 : Guess3} {size : Int} {procs : List Int} {axes axs : List (Axis K)} {Ls : List (Layout K)}

theorem multiplicity_pos (S : Setup g2 g3 false size procs axes axs Ls) {z : List Int} (hz : InBox (axs.map Axis.nnp) z) :
    0 < multiplicity axs z := by
  obtain ⟨e, t, h1, h2, h3⟩ := node_covered (Prb.setup_wf S) S.cond hz
  unfold multiplicity
  have a : 1 ≤ ((indices (nens axs)).map fun t => if nodeOf false axs e t = z then 1 else 0).sum := by
    have := List.single_le_sum (l := (indices (nens axs)).map fun t => if nodeOf false axs e t = z then 1 else 0) (by simp) 1
      (List.mem_map.2 ⟨t, (mem_indices _ _).2 h2, by rw [if_pos h3]⟩)
    exact this
  have b := List.single_le_sum (l := (indices (axs.map Axis.nel)).map fun e => ((indices (nens axs)).map fun t => if nodeOf false axs e t = z then 1 else 0).sum)
    (by simp) _ (List.mem_map.2 ⟨e, (mem_indices _ _).2 h1, rfl⟩)
  omega

/-! ### The lists of the elements -/

theorem exists_slot (axs : List (Axis K)) (hw : ∀ ax ∈ axs, WF ax) {dof i : Nat} (hi : i < unknowns axs dof) :
    ∃ t c, InBox (nens axs) t ∧ c < dof ∧ i = slot axs dof t c := by
  unfold unknowns at hi
  have hd : 0 < dof := by
    rcases Nat.eq_zero_or_pos dof with h | h
    · subst h; omega
    · exact h
  have hq : i / dof < (indices (nens axs)).length := Nat.div_lt_of_lt_mul (by rw [Nat.mul_comm]; exact hi)
  have hn : ∀ n ∈ nens axs, (1:Int) ≤ n := by
    intro n hn
    unfold nens at hn
    obtain ⟨ax, ha, rfl⟩ := List.mem_map.1 hn
    have := (hw ax ha).legal.degree
    omega
  have hl := indices_length hw
  obtain ⟨t, ht, e⟩ := flat_surj hn (k := ((i / dof : Nat) : Int)) (Int.natCast_nonneg _) (by rw [← hl]; exact_mod_cast hq)
  refine ⟨t, i % dof, ht, Nat.mod_lt _ hd, ?_⟩
  unfold slot
  rw [e]
  show i = i / dof * dof + i % dof
  rw [Nat.mul_comm]; exact (Nat.div_add_mod _ _).symm

theorem valuesOf_slot (axs : List (Axis K)) (dof : Nat) (u : List Int → Nat → V) (e : List Int) {t : List Int} {c : Nat}
    (ht : InBox (nens axs) t) (hc : c < dof) : (valuesOf false axs dof u e).getD (slot axs dof t c) 0 = u (nodeOf false axs e t) c := by
  have h1 : (t, (flat (nens axs) t).toNat) ∈ (indices (nens axs)).zipIdx := by
    rw [zipIdx_indices]; exact List.mem_map.2 ⟨t, (mem_indices _ _).2 ht, rfl⟩
  unfold slot
  generalize (flat (nens axs) t).toNat = k at h1 ⊢
  unfold valuesOf
  generalize indices (nens axs) = l at h1 ⊢
  induction l using List.reverseRecOn with
  | nil => simp at h1
  | append_singleton l s ih =>
    have hlen : (l.flatMap fun t => (List.range dof).map fun c => u (nodeOf false axs e t) c).length = l.length * dof := by
      rw [List.length_flatMap]; simp
    rw [List.zipIdx_append, List.mem_append] at h1
    rw [List.flatMap_append]
    rcases h1 with h1 | h1
    · have hk := (List.mem_zipIdx h1).2.1
      have : k * dof + c < l.length * dof := by
        calc _ < k * dof + dof := by omega
          _ = (k + 1) * dof := by ring
          _ ≤ _ := Nat.mul_le_mul_right _ (by omega)
      rw [List.getD_append _ _ _ _ (by omega)]
      exact ih h1
    · simp at h1
      obtain ⟨rfl, rfl⟩ := h1
      rw [List.getD_append_right _ _ _ _ (by omega), hlen, Nat.add_sub_cancel_left]
      simp [hc]

variable {ops : List (Form.Op V)} {dof : Nat} {UG : Option (List Int → Int → V)} {elt : List Int → Elt V P}

/-- The lists of an element agree with the conditions at the nodes of the grid. -/
theorem Built.spec (hw : ∀ ax ∈ axs, WF ax) {e : List Int} (he : InBox (axs.map Axis.nel) e) {E : Elt V P}
    (h : Built axs ops dof UG e E) : Ready E ∧ ∀ (t : List Int) (c : Nat), InBox (nens axs) t → c < dof →
      tableGet E.fixes.fix (slot axs dof t c : Nat) = prescribedAt axs ops UG (nodeOf false axs e t, (c:Int)) := by
  obtain ⟨c, hc, hdof, hform, htab, hb⟩ := h.lists
  have hid := elemRange hw he
  have hax : ∀ ax ∈ axs, PreWF ax := fun ax h => (hw ax h).toPreWF
  obtain ⟨s, e', g1, g2, hget⟩ := C36_constrained_in_every_element axs hax e hid c hc ops hform _ htab
  rw [hb] at e'
  cases e'
  have hnens : Fix.nens c.dirs = Asm.nens axs := by rw [hc]; exact elemNens hw he
  have hn : c.bufsize = E.n := by
    unfold Ctx.bufsize Elt.n
    rw [hdof, h.fields, h.nen]
    congr 1
    have h1 : (c.nen : Int) = prod (Fix.nens c.dirs) := by unfold Ctx.nen; exact nen_prod _
    rw [hnens, ← indices_length hw] at h1
    exact_mod_cast h1
  rw [hn] at g1 g2
  refine ⟨⟨h.index, h.galerkin, g1, g2⟩, ?_⟩
  intro t k ht hk
  have := hget t k (by rw [hnens]; exact ht) (by rw [hdof]; omega)
  rw [hnens, hdof] at this
  have hs : ((slot axs dof t k : Nat) : Int) = flat (nens axs) t * dof + k := by
    have : 0 ≤ flat (nens axs) t := (flat_range ht).1
    unfold slot; push_cast; rw [Int.toNat_of_nonneg this]
  rw [hs, this, node_eq hw he ht]
  unfold prescribedAt
  have hlen : (gridNode c.dirs t).length = axs.length := by
    unfold gridNode
    rw [List.length_zipWith, Asm.inBox_length ht]
    unfold nens
    rw [List.length_map, hc, elemDirs_length hid, Nat.min_self]
  have e1 : nodePrescribed (nodeDirs axs) (fun a s k => inForce a s k (Form.valueEvents ops)) (wrapNode axs (gridNode c.dirs t)) k =
      nodePrescribed (nodeDirs axs) (fun a s k => inForce a s k (Form.valueEvents ops)) (gridNode c.dirs t) k := by
    unfold nodePrescribed
    apply findSome_congr
    intro q _
    rw [onSide_wrap axs _ hlen]
  dsimp only
  rw [← hc, e1]
  congr 1
  funext v
  cases UG <;> rfl

theorem built_elements (hw : ∀ ax ∈ axs, WF ax) (hB : ∀ e, InBox (axs.map Axis.nel) e → Built axs ops dof UG e (elt e)) :
    Elements axs dof elt := fun e he => ⟨((hB e he).spec hw he).1, (hB e he).nen, (hB e he).fields⟩

theorem withValues_imposed (hw : ∀ ax ∈ axs, WF ax) (hB : ∀ e, InBox (axs.map Axis.nel) e → Built axs ops dof UG e (elt e))
    {e : List Int} (he : InBox (axs.map Axis.nel) e) (u : List Int → Nat → V) :
    withValues (elt e) (valuesOf false axs dof u e) = valuesOf false axs dof (imposed axs ops UG u) e := by
  have hn := (built_elements hw hB).n_eq he
  apply List.ext_getElem
  · rw [valuesOf_length]; simp [withValues, hn]
  · intro i h1 h2
    rw [valuesOf_length] at h2
    obtain ⟨t, c, ht, hc, rfl⟩ := exists_slot axs hw h2
    have := valuesOf_slot axs dof (imposed axs ops UG u) e ht hc
    rw [List.getD_eq_getElem?_getD, List.getElem?_eq_getElem (by rw [valuesOf_length]; exact h2)] at this
    simp only [Option.getD_some] at this
    rw [this]
    simp only [withValues, List.getElem_map, List.getElem_range]
    rw [((hB e he).spec hw he).2 t c ht hc, valuesOf_slot axs dof u e ht hc]
    rfl

theorem withoutRates_free (hw : ∀ ax ∈ axs, WF ax) (hB : ∀ e, InBox (axs.map Axis.nel) e → Built axs ops dof UG e (elt e))
    {e : List Int} (he : InBox (axs.map Axis.nel) e) (u : List Int → Nat → V) :
    withoutRates (elt e) (valuesOf false axs dof u e) = valuesOf false axs dof (freeRates axs ops UG u) e := by
  have hn := (built_elements hw hB).n_eq he
  apply List.ext_getElem
  · rw [valuesOf_length]; simp [withoutRates, hn]
  · intro i h1 h2
    rw [valuesOf_length] at h2
    obtain ⟨t, c, ht, hc, rfl⟩ := exists_slot axs hw h2
    have := valuesOf_slot axs dof (freeRates axs ops UG u) e ht hc
    rw [List.getD_eq_getElem?_getD, List.getElem?_eq_getElem (by rw [valuesOf_length]; exact h2)] at this
    simp only [Option.getD_some] at this
    rw [this]
    simp only [withoutRates, List.getElem_map, List.getElem_range]
    rw [((hB e he).spec hw he).2 t c ht hc, valuesOf_slot axs dof u e ht hc]
    rfl

theorem sumVec_congr (axs : List (Axis K)) (dof : Nat) {f g : List Int → Nat → V} {z : List Int} {c : Nat}
    (h : ∀ e t, InBox (axs.map Axis.nel) e → InBox (nens axs) t → nodeOf false axs e t = z → f e (slot axs dof t c) = g e (slot axs dof t c)) :
    sumVec axs dof f z c = sumVec axs dof g z c := by
  unfold sumVec
  congr 1; apply List.map_congr_left; intro e he
  congr 1; apply List.map_congr_left; intro t ht
  by_cases hz : nodeOf false axs e t = z
  · rw [if_pos hz, if_pos hz, h e t ((mem_indices _ _).1 he) ((mem_indices _ _).1 ht) hz]
  · rw [if_neg hz, if_neg hz]

theorem sumVec_const (axs : List (Axis K)) (dof : Nat) (v : V) (z : List Int) (c : Nat) :
    sumVec axs dof (fun _ _ => v) z c = (multiplicity axs z : V) * v := by
  have h1 : ∀ (l : List (List Int)) (p : List Int → Prop) [DecidablePred p], (l.map fun t => if p t then v else 0).sum =
      (((l.map fun t => if p t then 1 else 0).sum : Nat) : V) * v := by
    intro l p _
    induction l with
    | nil => simp
    | cons a l ih =>
      simp only [List.map_cons, List.sum_cons]
      rw [ih]
      by_cases h : p a
      · simp only [if_pos h]; push_cast; ring
      · simp only [if_neg h]; push_cast; ring
  unfold sumVec multiplicity
  induction indices (axs.map Axis.nel) with
  | nil => simp
  | cons e l ih =>
    simp only [List.map_cons, List.sum_cons]
    rw [ih, h1]
    push_cast
    ring

theorem sumVec_sub (axs : List (Axis K)) (dof : Nat) (f g : List Int → Nat → V) (z : List Int) (c : Nat) :
    sumVec axs dof (fun e i => f e i - g e i) z c = sumVec axs dof f z c - sumVec axs dof g z c := by
  have hsub : ∀ {α : Type} (f g : α → V) (l : List α), (l.map f).sum - (l.map g).sum = (l.map fun p => f p - g p).sum := by
    intro α f g l
    induction l with
    | nil => simp
    | cons a L ih => simp only [List.map_cons, List.sum_cons]; rw [← ih]; ring
  unfold sumVec
  rw [hsub]
  congr 1; apply List.map_congr_left; intro e _
  rw [hsub]
  congr 1; apply List.map_congr_left; intro t _
  split_ifs <;> simp

/-- The assembled residual: at a constrained unknown the number of elements at the node times the distance from the prescribed
value; elsewhere the weak form minus the loads. -/
theorem residual_eq (hw : ∀ ax ∈ axs, WF ax) (hB : ∀ e, InBox (axs.map Axis.nel) e → Built axs ops dof UG e (elt e))
    (u : List Int → Nat → V) (R : List Int → P → Int → V) (z : List Int) (c : Nat) (hc : c < dof) :
    sumVec axs dof (fun e => residualAt (elt e) (valuesOf false axs dof u e) (R e)) z c =
      match prescribedAt axs ops UG (z, (c:Int)) with
      | some v => (multiplicity axs z : V) * (u z c - v)
      | none => weak axs dof elt R z c - loads axs dof elt z c := by
  cases hp : prescribedAt axs ops UG (z, (c:Int)) with
  | some v =>
    dsimp only
    rw [← sumVec_const axs dof]
    apply sumVec_congr
    intro e t he ht hz
    unfold residualAt
    rw [((hB e he).spec hw he).2 t c ht hc, hz, hp]
    dsimp only
    rw [valuesOf_slot axs dof u e ht hc, hz]
  | none =>
    dsimp only
    unfold weak loads
    rw [← sumVec_sub]
    apply sumVec_congr
    intro e t he ht hz
    unfold residualAt
    rw [((hB e he).spec hw he).2 t c ht hc, hz, hp]

/-- The values `u` has at constrained unknowns are the prescribed ones. -/
def Satisfies (axs : List (Axis K)) (ops : List (Form.Op V)) (dof : Nat) (UG : Option (List Int → Int → V)) (u : List Int → Nat → V) : Prop :=
  ∀ z (c : Nat), InBox (axs.map Axis.nnp) z → c < dof → ∀ v, prescribedAt axs ops UG (z, (c:Int)) = some v → u z c = v

/-- The equation `f z c = g z c` holds at every unknown that is not constrained. -/
def AtFree (axs : List (Axis K)) (ops : List (Form.Op V)) (dof : Nat) (UG : Option (List Int → Int → V)) (f g : List Int → Nat → V) : Prop :=
  ∀ z (c : Nat), InBox (axs.map Axis.nnp) z → c < dof → prescribedAt axs ops UG (z, (c:Int)) = none → f z c = g z c

/-- A field with the prescribed values is left alone on every element. -/
theorem values_satisfied (S : Setup g2 g3 false size procs axes axs Ls) {u : List Int → Nat → V} (h : Satisfies axs ops dof UG u)
    {e : List Int} (he : InBox (axs.map Axis.nel) e) : valuesOf false axs dof (imposed axs ops UG u) e = valuesOf false axs dof u e := by
  unfold valuesOf
  have : ∀ t ∈ indices (nens axs), ((List.range dof).map fun c => imposed axs ops UG u (nodeOf false axs e t) c) =
      (List.range dof).map fun c => u (nodeOf false axs e t) c := by
    intro t ht
    apply List.map_congr_left
    intro c hc
    rw [List.mem_range] at hc
    unfold imposed
    cases hp : prescribedAt axs ops UG (nodeOf false axs e t, (c:Int)) with
    | none => rfl
    | some v => exact (h _ c (nodeOf_inBox S he ht) hc v hp).symm
  rw [List.flatMap_def, List.flatMap_def, List.map_congr_left this]

section zero
variable {V : Type} [Field V] [CharZero V] {ops : List (Form.Op V)} {UG : Option (List Int → Int → V)} {elt : List Int → Elt V P}

/-- The assembled residual vanishes exactly if the prescribed values are taken and the weak form equals the loads at the
other unknowns. -/
theorem zero_iff (S : Setup g2 g3 false size procs axes axs Ls) (hB : ∀ e, InBox (axs.map Axis.nel) e → Built axs ops dof UG e (elt e))
    {F : Int → V} (u : List Int → Nat → V) (R R' : List Int → P → Int → V)
    (hF : Represents axs Ls dof F (sumVec axs dof fun e => residualAt (elt e) (valuesOf false axs dof u e) (R e)))
    (hR : Satisfies axs ops dof UG u → ∀ e, InBox (axs.map Axis.nel) e → R e = R' e) :
    Represents axs Ls dof F (fun _ _ => 0) ↔ Satisfies axs ops dof UG u ∧ AtFree axs ops dof UG (weak axs dof elt R') (loads axs dof elt) := by
  have hw := Prb.setup_wf S
  have hweak : Satisfies axs ops dof UG u → ∀ z c, weak axs dof elt R z c = weak axs dof elt R' z c := by
    intro hs z c
    unfold weak
    apply sumVec_congr
    intro e t he ht hz
    rw [hR hs e he]
  constructor
  · intro h0
    have hz : ∀ z (c : Nat), InBox (axs.map Axis.nnp) z → c < dof →
        sumVec axs dof (fun e => residualAt (elt e) (valuesOf false axs dof u e) (R e)) z c = 0 := by
      intro z c hz hc
      rw [← hF z c hz hc, h0 z c hz hc]
    have hs : Satisfies axs ops dof UG u := by
      intro z c hz' hc v hv
      have := hz z c hz' hc
      rw [residual_eq hw hB u R z c hc, hv] at this
      dsimp only at this
      have hm : (multiplicity axs z : V) ≠ 0 := by
        have := multiplicity_pos S hz'
        exact_mod_cast (by omega : multiplicity axs z ≠ 0)
      rcases mul_eq_zero.1 this with h | h
      · exact absurd h hm
      · exact sub_eq_zero.1 h
    refine ⟨hs, ?_⟩
    intro z c hz' hc hv
    have := hz z c hz' hc
    rw [residual_eq hw hB u R z c hc, hv] at this
    dsimp only at this
    rw [hweak hs] at this
    exact sub_eq_zero.1 this
  · rintro ⟨hs, hf⟩ z c hz hc
    rw [hF z c hz hc, residual_eq hw hB u R z c hc]
    cases hv : prescribedAt axs ops UG (z, (c:Int)) with
    | some v => dsimp only; rw [hs z c hz hc v hv, sub_self, mul_zero]
    | none => dsimp only; rw [hweak hs, hf z c hz hc hv, sub_self]

/-- **C80**, `IGAComputeFunction`.  The assembled residual of `u` vanishes exactly if `u` takes the prescribed
values and the weak form of `u` – the user's residual integrated with the values of `u` itself, no boundary condition
anywhere – equals the boundary loads at every unknown that is not constrained.  For every decomposition, history of the iterators and content
of the work arrays. -/
theorem C80_function (S : Setup g2 g3 false size procs axes axs Ls) (hB : ∀ e, InBox (axs.map Axis.nel) e → Built axs ops dof UG e (elt e))
    (cb : P → List V → (Int → V) → Res (Int → V)) (R : P → List V → Int → V)
    (hR : ∀ U, Fills (unknowns axs dof) (fun p => cb p U) (fun p => R p U)) (hist) (pw) (w) (vecU : Int → V) (junk) (u : List Int → Nat → V)
    (hu : Represents axs Ls dof vecU u) :
    ∃ F, computeFunction Ls hist dof ⟨elt, pw, w⟩ cb vecU junk = .ok F ∧ (Represents axs Ls dof F (fun _ _ => 0) ↔
      Satisfies axs ops dof UG u ∧ AtFree axs ops dof UG (weak axs dof elt fun e p => R p (valuesOf false axs dof u e)) (loads axs dof elt)) := by
  have hw := Prb.setup_wf S
  have hE := built_elements hw hB
  obtain ⟨F, h1, h2⟩ := vec_global S hist dof vecU junk u hu (fun r e U => entries (function (elt e) cb U (pw r e) (w r e)))
    (fun e => residualAt (elt e) (valuesOf false axs dof u e) (fun p => R p (withValues (elt e) (valuesOf false axs dof u e)))) fun r e he =>
    element_vec hE he (C77_function (elt e) (hE e he).1 cb R (by rw [hE.m_eq he]; exact hR) _ _ _)
  refine ⟨F, h1, zero_iff S hB u _ _ h2 ?_⟩
  intro hs e he
  funext p
  rw [withValues_imposed hw hB he, values_satisfied S hs he]

/-- **C80**, `IGAComputeIFunction`: the same with the rates `v`, taken as zero at constrained unknowns. -/
theorem C80_ifunction (S : Setup g2 g3 false size procs axes axs Ls) (hB : ∀ e, InBox (axs.map Axis.nel) e → Built axs ops dof UG e (elt e))
    (cb : P → V → List V → V → List V → (Int → V) → Res (Int → V)) (R : P → V → List V → V → List V → Int → V)
    (hR : ∀ a X t U, Fills (unknowns axs dof) (fun p => cb p a X t U) (fun p => R p a X t U)) (hist) (pw) (w) (a t : V)
    (vecV vecU : Int → V) (junkV junkU) (v u : List Int → Nat → V) (hv : Represents axs Ls dof vecV v) (hu : Represents axs Ls dof vecU u) :
    ∃ F, computeIFunction Ls hist dof ⟨elt, pw, w⟩ cb a vecV t vecU junkV junkU = .ok F ∧ (Represents axs Ls dof F (fun _ _ => 0) ↔
      Satisfies axs ops dof UG u ∧ AtFree axs ops dof UG (weak axs dof elt fun e p =>
        R p a (valuesOf false axs dof (freeRates axs ops UG v) e) t (valuesOf false axs dof u e)) (loads axs dof elt)) := by
  have hw := Prb.setup_wf S
  have hE := built_elements hw hB
  obtain ⟨F, h1, h2⟩ := vec_global S hist dof _ _ _ (represents_pair hv hu) (fun r e X =>
      entries (ifunction (elt e) cb a (X.map Prod.fst) t (X.map Prod.snd) (pw r e) (w r e)))
    (fun e => residualAt (elt e) (valuesOf false axs dof u e) (fun p => R p a (withoutRates (elt e) (valuesOf false axs dof v e)) t (withValues (elt e) (valuesOf false axs dof u e)))) fun r e he => by
      simp only [valuesOf_map]
      exact element_vec hE he (C77_ifunction (elt e) (hE e he).1 cb R (by rw [hE.m_eq he]; exact hR) _ _ _ _ _ _)
  refine ⟨F, h1, zero_iff S hB u _ _ h2 ?_⟩
  intro hs e he
  funext p
  rw [withValues_imposed hw hB he, values_satisfied S hs he, withoutRates_free hw hB he]

theorem represents_triple {W W' W'' : Type} {gv : Int → W} {gu : Int → W'} {gw : Int → W''} {v : List Int → Nat → W} {u : List Int → Nat → W'}
    {w : List Int → Nat → W''} {dof : Nat} (hv : Represents axs Ls dof gv v) (hu : Represents axs Ls dof gu u) (hw : Represents axs Ls dof gw w) :
    Represents axs Ls dof (fun i => (gv i, gu i, gw i)) fun x c => (v x c, u x c, w x c) :=
  represents_pair hv (represents_pair hu hw)

/-- **C80**, `IGAComputeIEFunction`: the previous values `u₀` are passed with the prescribed values in place. -/
theorem C80_iefunction (S : Setup g2 g3 false size procs axes axs Ls) (hB : ∀ e, InBox (axs.map Axis.nel) e → Built axs ops dof UG e (elt e))
    (cb : P → V → List V → V → List V → V → List V → (Int → V) → Res (Int → V)) (R : P → V → List V → V → List V → V → List V → Int → V)
    (hR : ∀ a X t U t0 U0, Fills (unknowns axs dof) (fun p => cb p a X t U t0 U0) (fun p => R p a X t U t0 U0)) (hist) (pw) (w) (a t t0 : V)
    (vecV vecU vecU0 : Int → V) (junkV junkU junkU0) (v u u0 : List Int → Nat → V) (hv : Represents axs Ls dof vecV v) (hu : Represents axs Ls dof vecU u)
    (hu0 : Represents axs Ls dof vecU0 u0) :
    ∃ F, computeIEFunction Ls hist dof ⟨elt, pw, w⟩ cb a vecV t vecU t0 vecU0 junkV junkU junkU0 = .ok F ∧ (Represents axs Ls dof F (fun _ _ => 0) ↔
      Satisfies axs ops dof UG u ∧ AtFree axs ops dof UG (weak axs dof elt fun e p =>
        R p a (valuesOf false axs dof (freeRates axs ops UG v) e) t (valuesOf false axs dof u e) t0
          (valuesOf false axs dof (imposed axs ops UG u0) e)) (loads axs dof elt)) := by
  have hw := Prb.setup_wf S
  have hE := built_elements hw hB
  obtain ⟨F, h1, h2⟩ := vec_global S hist dof _ _ _ (represents_triple hv hu hu0) (fun r e X =>
      entries (iefunction (elt e) cb a (X.map Prod.fst) t (X.map fun x => x.2.1) t0 (X.map fun x => x.2.2) (pw r e) (w r e)))
    (fun e => residualAt (elt e) (valuesOf false axs dof u e) (fun p => R p a (withoutRates (elt e) (valuesOf false axs dof v e)) t
      (withValues (elt e) (valuesOf false axs dof u e)) t0 (withValues (elt e) (valuesOf false axs dof u0 e)))) fun r e he => by
      simp only [valuesOf_map]
      exact element_vec hE he (C77_iefunction (elt e) (hE e he).1 cb R (by rw [hE.m_eq he]; exact hR) _ _ _ _ _ _ _ _)
  refine ⟨F, h1, zero_iff S hB u _ _ h2 ?_⟩
  intro hs e he
  funext p
  rw [withValues_imposed hw hB he, values_satisfied S hs he, withoutRates_free hw hB he, withValues_imposed hw hB he]

/-- **C80**, `IGAComputeI2Function`: rates and accelerations are taken as zero at constrained unknowns. -/
theorem C80_i2function (S : Setup g2 g3 false size procs axes axs Ls) (hB : ∀ e, InBox (axs.map Axis.nel) e → Built axs ops dof UG e (elt e))
    (cb : P → V → List V → V → List V → V → List V → (Int → V) → Res (Int → V)) (R : P → V → List V → V → List V → V → List V → Int → V)
    (hR : ∀ a X b Y t U, Fills (unknowns axs dof) (fun p => cb p a X b Y t U) (fun p => R p a X b Y t U)) (hist) (pw) (w) (a b t : V)
    (vecA vecV vecU : Int → V) (junkA junkV junkU) (x v u : List Int → Nat → V) (hx : Represents axs Ls dof vecA x) (hv : Represents axs Ls dof vecV v)
    (hu : Represents axs Ls dof vecU u) :
    ∃ F, computeI2Function Ls hist dof ⟨elt, pw, w⟩ cb a vecA b vecV t vecU junkA junkV junkU = .ok F ∧ (Represents axs Ls dof F (fun _ _ => 0) ↔
      Satisfies axs ops dof UG u ∧ AtFree axs ops dof UG (weak axs dof elt fun e p =>
        R p a (valuesOf false axs dof (freeRates axs ops UG x) e) b (valuesOf false axs dof (freeRates axs ops UG v) e) t
          (valuesOf false axs dof u e)) (loads axs dof elt)) := by
  have hw := Prb.setup_wf S
  have hE := built_elements hw hB
  obtain ⟨F, h1, h2⟩ := vec_global S hist dof _ _ _ (represents_triple hx hv hu) (fun r e X =>
      entries (i2function (elt e) cb a (X.map Prod.fst) b (X.map fun x => x.2.1) t (X.map fun x => x.2.2) (pw r e) (w r e)))
    (fun e => residualAt (elt e) (valuesOf false axs dof u e) (fun p => R p a (withoutRates (elt e) (valuesOf false axs dof x e)) b
      (withoutRates (elt e) (valuesOf false axs dof v e)) t (withValues (elt e) (valuesOf false axs dof u e)))) fun r e he => by
      simp only [valuesOf_map]
      exact element_vec hE he (C77_i2function (elt e) (hE e he).1 cb R (by rw [hE.m_eq he]; exact hR) _ _ _ _ _ _ _ _)
  refine ⟨F, h1, zero_iff S hB u _ _ h2 ?_⟩
  intro hs e he
  funext p
  rw [withValues_imposed hw hB he, values_satisfied S hs he, withoutRates_free hw hB he, withoutRates_free hw hB he]

/-! ### The linear system -/

/-- **C80**, `IGAComputeVector`: no boundary condition is applied, the vector is the weak form. -/
theorem C80_vector (S : Setup g2 g3 false size procs axes axs Ls) (hB : ∀ e, InBox (axs.map Axis.nel) e → Built axs ops dof UG e (elt e))
    (cb : P → (Int → V) → Res (Int → V)) (r : P → Int → V) (hR : Fills (unknowns axs dof) cb r) (hist) (pw) (w) :
    ∃ b, computeVector Ls hist dof ⟨elt, pw, w⟩ cb = .ok b ∧ Represents axs Ls dof b (weak axs dof elt fun _ => r) := by
  have hE := built_elements (Prb.setup_wf S) hB
  have hu : Represents axs Ls dof (fun _ : Int => ()) (fun _ _ => ()) := fun _ _ _ _ => rfl
  refine vec_global S hist dof (fun _ => ()) (fun _ => ()) _ hu _ _ fun r' e he => ?_
  obtain ⟨B, h1, h2⟩ := C77_vector (elt e) (hE e he).1 cb r (by rw [hE.m_eq he]; exact hR) (pw r' e) (w r' e)
  rw [h1]
  exact ⟨_, rfl, fun i hi => h2 i (by rw [hE.n_eq he]; exact hi)⟩

/-- **C80**, `IGAComputeMatrix`: no boundary condition is applied. -/
theorem C80_matrix (S : Setup g2 g3 false size procs axes axs Ls) (hB : ∀ e, InBox (axs.map Axis.nel) e → Built axs ops dof UG e (elt e))
    (cb : P → (Int → V) → Res (Int → V)) (k : P → Int → V) (hK : Fills (unknowns axs dof * unknowns axs dof) cb k) (hist) (pw) (w) :
    ∃ A, computeMatrix Ls hist dof ⟨elt, pw, w⟩ cb = .ok A ∧ RepresentsMat axs Ls dof A
      (sumMat axs dof fun e i j => integral (elt e) fun p => k p (i * unknowns axs dof + j)) := by
  have hE := built_elements (Prb.setup_wf S) hB
  have hu : Represents axs Ls dof (fun _ : Int => ()) (fun _ _ => ()) := fun _ _ _ _ => rfl
  refine mat_global S hist dof (fun _ => ()) (fun _ => ()) _ hu _ _ fun r' e he => ?_
  obtain ⟨A, h1, h2⟩ := C77_matrix (elt e) (hE e he).1 cb k (by rw [hE.m_eq he, hE.n_eq he]; exact hK) (pw r' e) (w r' e)
  rw [h1]
  refine ⟨_, rfl, fun i j hi hj => ?_⟩
  have := h2 i j (by rw [hE.n_eq he]; exact hi) (by rw [hE.n_eq he]; exact hj)
  rw [hE.n_eq he] at this
  push_cast
  exact this

/-- Right-hand side of an element of `IGAComputeSystem`. -/
def rhsAt (E : Elt V P) (k r : P → Int → V) (i : Nat) : V :=
  match tableGet E.fixes.fix i with
  | some v => v
  | none => integral E (fun p => r p i) + (tableGet E.fixes.flux i).getD 0 -
      (E.fixes.fix.map fun q => integral E (fun p => k p (i * E.n + q.1)) * q.2).sum

theorem finset_list (n : Nat) (f : Nat → V) : ∑ j ∈ Finset.range n, f j = ((List.range n).map f).sum := by
  induction n with
  | zero => simp
  | succ n ih => rw [Finset.sum_range_succ, ih, List.range_succ, List.map_append, List.sum_append]; simp

/-- A free row of an element system: the contributions of the prescribed values go back to the left. -/
theorem free_row (E : Elt V P) (h : Ready E) (k r : P → Int → V) (U : List V) (i : Nat)
    (hf : tableGet E.fixes.fix i = none) (hU : ∀ j : Nat, j < E.n → ∀ v, tableGet E.fixes.fix j = some v → U.getD j 0 = v) :
    ((List.range E.n).map fun (j : Nat) => jacobianAt E k i j * U.getD j 0).sum - rhsAt E k r i =
      ((List.range E.n).map fun (j : Nat) => integral E (fun p => k p (i * E.n + j)) * U.getD j 0).sum -
        (integral E (fun p => r p i) + (tableGet E.fixes.flux i).getD 0) := by
  have hs := sum_fixed (N := E.n) (fun j => integral E (fun p => k p (i * E.n + j)) * U.getD j.toNat 0) E.fixes.fix h.fix
  have e1 : (E.fixes.fix.map fun q => integral E (fun p => k p (i * E.n + q.1)) * q.2) =
      E.fixes.fix.map fun q => integral E (fun p => k p (i * E.n + q.1)) * U.getD q.1.toNat 0 := by
    apply List.map_congr_left
    intro q hq
    have hr := h.fix.range q.1 (List.mem_map.2 ⟨q, hq, rfl⟩)
    have hg := (tableGet_iff h.fix.distinct q.1 q.2).2 hq
    rw [hU q.1.toNat (by omega) q.2 (by rw [Int.toNat_of_nonneg hr.1]; exact hg)]
  unfold rhsAt
  rw [hf]
  dsimp only
  rw [e1, ← hs, finset_list]
  have e2 : ((List.range E.n).map fun (j : Nat) => integral E (fun p => k p (i * E.n + j)) * U.getD j 0).sum =
      ((List.range E.n).map fun (j : Nat) => jacobianAt E k i j * U.getD j 0).sum +
      ((List.range E.n).map fun (j : Nat) => if Fixed E.fixes.fix (j:Int) then
        integral E (fun p => k p (i * E.n + (j:Int))) * U.getD (j:Int).toNat 0 else 0).sum := by
    rw [← List.sum_map_add]
    congr 1
    apply List.map_congr_left
    intro j hj
    unfold jacobianAt
    rw [hf]
    by_cases hj : Fixed E.fixes.fix (j:Int)
    · have hj' := isSome_iff.2 hj
      have hij : i ≠ j := by rintro rfl; rw [hf] at hj'; simp at hj'
      rw [if_pos (Or.inr hj'), if_neg hij, if_pos hj]
      simp
    · have hj' : ¬ (tableGet E.fixes.fix (j:Int)).isSome = true := fun h => hj (isSome_iff.1 h)
      rw [if_neg (by simpa using hj'), if_neg hj, add_zero]
  rw [e2]
  ring

/-- **C80**, `IGAComputeSystem`.  A vector `u` solves the assembled system exactly if it takes the prescribed values and
satisfies, at every unknown that is not constrained, the equations assembled without boundary conditions, with the boundary
loads on the right. -/
theorem C80_system (S : Setup g2 g3 false size procs axes axs Ls) (hB : ∀ e, InBox (axs.map Axis.nel) e → Built axs ops dof UG e (elt e))
    (cb : P → (Int → V) → (Int → V) → Res ((Int → V) × (Int → V))) (k r : P → Int → V)
    (hK : FillsSys (unknowns axs dof) (unknowns axs dof) cb k r) (hist) (pw) (w) :
    ∃ A b a f, computeSystem Ls hist dof ⟨elt, pw, w⟩ cb = .ok (A, b) ∧ RepresentsMat axs Ls dof A a ∧ Represents axs Ls dof b f ∧
      ∀ u : List Int → Nat → V,
        ((∀ z (c : Nat), InBox (axs.map Axis.nnp) z → c < dof →
            ((indices (axs.map Axis.nnp)).map fun y => ((List.range dof).map fun d => a z c y d * u y d).sum).sum = f z c) ↔
          Satisfies axs ops dof UG u ∧ AtFree axs ops dof UG
            (fun z c => ((indices (axs.map Axis.nnp)).map fun y => ((List.range dof).map fun d =>
              sumMat axs dof (fun e i j => integral (elt e) fun p => k p (i * unknowns axs dof + j)) z c y d * u y d).sum).sum)
            (fun z c => weak axs dof elt (fun _ => r) z c + loads axs dof elt z c)) := by
  have hw := Prb.setup_wf S
  have hE := built_elements hw hB
  have hu : Represents axs Ls dof (fun _ : Int => ()) (fun _ _ => ()) := fun _ _ _ _ => rfl
  obtain ⟨A, a1, a2⟩ := mat_global S hist dof (fun _ => ()) (fun _ => ()) _ hu
    (fun r e _ => entries ((system (elt e) cb (pw r e) (w r e)).bind fun s => .ok s.1)) (fun e => jacobianAt (elt e) k) fun r' e he => by
      obtain ⟨A, B, h1, h2, _⟩ := C77_system (elt e) (hE e he).1 cb k r (by rw [hE.m_eq he, hE.n_eq he]; exact hK) (pw r' e) (w r' e)
      exact element_mat hE he ⟨A, by rw [h1]; rfl, h2⟩
  obtain ⟨b, b1, b2⟩ := vec_global S hist dof (fun _ => ()) (fun _ => ()) _ hu
    (fun r e _ => entries ((system (elt e) cb (pw r e) (w r e)).bind fun s => .ok s.2)) (fun e => rhsAt (elt e) k r) fun r' e he => by
      obtain ⟨A, B, h1, _, h3⟩ := C77_system (elt e) (hE e he).1 cb k r (by rw [hE.m_eq he, hE.n_eq he]; exact hK) (pw r' e) (w r' e)
      rw [h1]
      exact ⟨_, rfl, fun i hi => h3 i (by rw [hE.n_eq he]; exact hi)⟩
  refine ⟨A, b, _, _, by unfold computeSystem; rw [a1]; show Res.bind _ _ = _; rw [b1]; rfl, a2, b2, ?_⟩
  intro u
  have hfixed : ∀ z (c : Nat), InBox (axs.map Axis.nnp) z → c < dof → ∀ v, prescribedAt axs ops UG (z, (c:Int)) = some v →
      ((((indices (axs.map Axis.nnp)).map fun y => ((List.range dof).map fun d => sumMat axs dof (fun e => jacobianAt (elt e) k) z c y d * u y d).sum).sum =
        sumVec axs dof (fun e => rhsAt (elt e) k r) z c) ↔ u z c = v) := by
    intro z c hz hc v hv
    have e1 : ((indices (axs.map Axis.nnp)).map fun y => ((List.range dof).map fun d => sumMat axs dof (fun e => jacobianAt (elt e) k) z c y d * u y d).sum).sum =
        (multiplicity axs z : V) * u z c := by
      rw [sumMat_mul S, ← sumVec_const axs dof (u z c) z c]
      unfold sumVec
      congr 1; apply List.map_congr_left; intro e he
      rw [mem_indices] at he
      congr 1; apply List.map_congr_left; intro t ht
      have ht' := (mem_indices _ _).1 ht
      by_cases hn : nodeOf false axs e t = z
      · rw [if_pos hn, if_pos hn, sum_single _ _ (slot_lt axs ht hc)]
        · unfold jacobianAt
          rw [((hB e he).spec hw he).2 t c ht' hc, hn, hv, if_pos (Or.inl (Option.isSome_some)), if_pos rfl, one_mul, valuesOf_slot axs dof u e ht' hc, hn]
        · intro j _ hj
          unfold jacobianAt
          rw [((hB e he).spec hw he).2 t c ht' hc, hn, hv, if_pos (Or.inl (Option.isSome_some)), if_neg (Ne.symm hj), zero_mul]
      · rw [if_neg hn, if_neg hn]
    have e2 : sumVec axs dof (fun e => rhsAt (elt e) k r) z c = (multiplicity axs z : V) * v := by
      rw [← sumVec_const axs dof v z c]
      apply sumVec_congr
      intro e t he ht hn
      unfold rhsAt
      rw [((hB e he).spec hw he).2 t c ht hc, hn, hv]
    rw [e1, e2]
    have hm : (multiplicity axs z : V) ≠ 0 := by
      have := multiplicity_pos S hz
      exact_mod_cast (by omega : multiplicity axs z ≠ 0)
    exact ⟨fun h => mul_left_cancel₀ hm h, fun h => by rw [h]⟩
  have hfree : Satisfies axs ops dof UG u → ∀ z (c : Nat), InBox (axs.map Axis.nnp) z → c < dof → prescribedAt axs ops UG (z, (c:Int)) = none →
      ((indices (axs.map Axis.nnp)).map fun y => ((List.range dof).map fun d => sumMat axs dof (fun e => jacobianAt (elt e) k) z c y d * u y d).sum).sum -
        sumVec axs dof (fun e => rhsAt (elt e) k r) z c =
      ((indices (axs.map Axis.nnp)).map fun y => ((List.range dof).map fun d =>
        sumMat axs dof (fun e i j => integral (elt e) fun p => k p (i * unknowns axs dof + j)) z c y d * u y d).sum).sum -
        (weak axs dof elt (fun _ => r) z c + loads axs dof elt z c) := by
    intro hs z c hz hc hv
    have e0 : weak axs dof elt (fun _ => r) z c + loads axs dof elt z c =
        sumVec axs dof (fun e i => integral (elt e) (fun p => r p i) + (tableGet (elt e).fixes.flux i).getD 0) z c := by
      have := sumVec_sub axs dof (fun e i => integral (elt e) (fun p => r p i) + (tableGet (elt e).fixes.flux i).getD 0)
        (fun e i => (tableGet (elt e).fixes.flux i).getD 0) z c
      simp only [add_sub_cancel_right] at this
      unfold weak loads
      rw [this]; ring
    rw [e0, sumMat_mul S, sumMat_mul S]
    have hl := sumVec_sub axs dof (fun e i => ((List.range (unknowns axs dof)).map fun j => jacobianAt (elt e) k i j * (valuesOf false axs dof u e).getD j 0).sum)
      (fun e => rhsAt (elt e) k r) z c
    have hr := sumVec_sub axs dof (fun e i => ((List.range (unknowns axs dof)).map fun (j : Nat) => integral (elt e) (fun p => k p (i * unknowns axs dof + j)) * (valuesOf false axs dof u e).getD j 0).sum)
      (fun e i => integral (elt e) (fun p => r p i) + (tableGet (elt e).fixes.flux i).getD 0) z c
    refine Eq.trans hl.symm (Eq.trans ?_ hr)
    apply sumVec_congr
    intro e t he ht hn
    obtain ⟨hready, htab⟩ := (hB e he).spec hw he
    have := free_row (elt e) hready k r (valuesOf false axs dof u e) (slot axs dof t c) (by rw [htab t c ht hc, hn, hv]) (by
      intro j hj v' hv'
      rw [hE.n_eq he] at hj
      obtain ⟨t', c', ht', hc', rfl⟩ := exists_slot axs hw hj
      rw [htab t' c' ht' hc'] at hv'
      rw [valuesOf_slot axs dof u e ht' hc']
      exact hs _ c' (nodeOf_inBox S he ((mem_indices _ _).2 ht')) hc' v' hv')
    rw [hE.n_eq he] at this
    exact this
  constructor
  · intro h
    have hs : Satisfies axs ops dof UG u := fun z c hz hc v hv => (hfixed z c hz hc v hv).1 (h z c hz hc)
    refine ⟨hs, fun z c hz hc hv => ?_⟩
    have := hfree hs z c hz hc hv
    rw [h z c hz hc, sub_self] at this
    exact sub_eq_zero.1 this.symm
  · rintro ⟨hs, hf⟩ z c hz hc
    cases hv : prescribedAt axs ops UG (z, (c:Int)) with
    | some v => exact (hfixed z c hz hc v hv).2 (hs z c hz hc v hv)
    | none =>
      have := hfree hs z c hz hc hv
      have hf' := hf z c hz hc hv
      dsimp only at hf'
      rw [hf', sub_self] at this
      exact sub_eq_zero.1 this

/-! ### The right-hand side of `u' = G(t,u)` -/

/-- **C81.** `IGAComputeRHSFunction`: at a constrained unknown the rate is the number of elements at the node times the distance
from the prescribed value; elsewhere it is the weak form of the field with the prescribed values in place, minus the loads. -/
theorem C81_rate (S : Setup g2 g3 false size procs axes axs Ls) (hB : ∀ e, InBox (axs.map Axis.nel) e → Built axs ops dof UG e (elt e))
    (cb : P → V → List V → (Int → V) → Res (Int → V)) (R : P → V → List V → Int → V)
    (hR : ∀ t U, Fills (unknowns axs dof) (fun p => cb p t U) (fun p => R p t U)) (hist) (pw) (w) (t : V) (vecU : Int → V) (junk)
    (u : List Int → Nat → V) (hu : Represents axs Ls dof vecU u) :
    ∃ G g, computeRHSFunction Ls hist dof ⟨elt, pw, w⟩ cb t vecU junk = .ok G ∧ Represents axs Ls dof G g ∧
      (∀ z (c : Nat), c < dof → ∀ v, prescribedAt axs ops UG (z, (c:Int)) = some v → g z c = (multiplicity axs z : V) * (u z c - v)) ∧
      ∀ z (c : Nat), c < dof → prescribedAt axs ops UG (z, (c:Int)) = none →
        g z c = weak axs dof elt (fun e p => R p t (valuesOf false axs dof (imposed axs ops UG u) e)) z c - loads axs dof elt z c := by
  have hw := Prb.setup_wf S
  have hE := built_elements hw hB
  obtain ⟨F, h1, h2⟩ := vec_global S hist dof vecU junk u hu (fun r e U => entries (rhsfunction (elt e) cb t U (pw r e) (w r e)))
    (fun e => residualAt (elt e) (valuesOf false axs dof u e) (fun p => R p t (withValues (elt e) (valuesOf false axs dof u e)))) fun r e he =>
    element_vec hE he (C77_rhsfunction (elt e) (hE e he).1 cb R (by rw [hE.m_eq he]; exact hR) _ _ _ _)
  refine ⟨F, _, h1, h2, fun z c hc v hv => ?_, fun z c hc hv => ?_⟩
  · rw [residual_eq hw hB u _ z c hc, hv]
  · rw [residual_eq hw hB u (fun e p => R p t (withValues (elt e) (valuesOf false axs dof u e))) z c hc, hv]
    dsimp only
    congr 1
    unfold weak
    apply sumVec_congr
    intro e t he ht hz
    dsimp only
    rw [withValues_imposed hw hB he]

/-- **C81.** What holds of `IGAComputeRHSFunction` as a rate: a field that takes the prescribed values keeps them. -/
theorem C81_rate_partial (S : Setup g2 g3 false size procs axes axs Ls) (hB : ∀ e, InBox (axs.map Axis.nel) e → Built axs ops dof UG e (elt e))
    (cb : P → V → List V → (Int → V) → Res (Int → V)) (R : P → V → List V → Int → V)
    (hR : ∀ t U, Fills (unknowns axs dof) (fun p => cb p t U) (fun p => R p t U)) (hist) (pw) (w) (t : V) (vecU : Int → V) (junk)
    (u : List Int → Nat → V) (hu : Represents axs Ls dof vecU u) (hs : Satisfies axs ops dof UG u) :
    ∃ G g, computeRHSFunction Ls hist dof ⟨elt, pw, w⟩ cb t vecU junk = .ok G ∧ Represents axs Ls dof G g ∧
      ∀ z (c : Nat), InBox (axs.map Axis.nnp) z → c < dof → ∀ v, prescribedAt axs ops UG (z, (c:Int)) = some v → g z c = 0 := by
  obtain ⟨G, g, h1, h2, h3, _⟩ := C81_rate S hB cb R hR hist pw w t vecU junk u hu
  exact ⟨G, g, h1, h2, fun z c hz hc v hv => by rw [h3 z c hc v hv, hs z c hz hc v hv, sub_self, mul_zero]⟩

/-- **C81** is refuted for `IGAComputeRHSFunction`: the rate of a constrained unknown whose value is not the prescribed one is
not zero – and by `C81_rate` it points away from the prescribed value. -/
theorem C81_rate_refuted (S : Setup g2 g3 false size procs axes axs Ls) (hB : ∀ e, InBox (axs.map Axis.nel) e → Built axs ops dof UG e (elt e))
    (cb : P → V → List V → (Int → V) → Res (Int → V)) (R : P → V → List V → Int → V)
    (hR : ∀ t U, Fills (unknowns axs dof) (fun p => cb p t U) (fun p => R p t U)) (hist) (pw) (w) (t : V) (vecU : Int → V) (junk)
    (u : List Int → Nat → V) (hu : Represents axs Ls dof vecU u) (z : List Int) (c : Nat) (hz : InBox (axs.map Axis.nnp) z) (hc : c < dof)
    (v : V) (hv : prescribedAt axs ops UG (z, (c:Int)) = some v) (hne : u z c ≠ v) :
    ∃ G g, computeRHSFunction Ls hist dof ⟨elt, pw, w⟩ cb t vecU junk = .ok G ∧ Represents axs Ls dof G g ∧ g z c ≠ 0 := by
  obtain ⟨G, g, h1, h2, h3, _⟩ := C81_rate S hB cb R hR hist pw w t vecU junk u hu
  refine ⟨G, g, h1, h2, ?_⟩
  rw [h3 z c hc v hv]
  have hm : (multiplicity axs z : V) ≠ 0 := by
    have := multiplicity_pos S hz
    exact_mod_cast (by omega : multiplicity axs z ≠ 0)
  exact mul_ne_zero hm (sub_ne_zero.2 hne)

end zero

/-! ### Non-vacuity -/

/-- The value 5 on the low side of direction 1 of the grid of C51 (direction 0 is periodic), the load 3 on its high side. -/
def exBC : List (Form.Op Rat) := [.setValue 1 0 0 5, .setLoad 1 1 0 3]

def exCtxOf (e : List Int) : Ctx Rat := ⟨elemDirs exAxs e, 1, Form.run Form.create exBC, none, fun a => a, fun _ _ => 2⟩

/-- The elements with the lists built for these conditions and one interior point. -/
def exBuiltElt (e : List Int) : Elt Rat Unit where
  index := 0
  neq := (indices (nens exAxs)).length
  nen := (indices (nens exAxs)).length
  dof := 1
  fixes := match build (exCtxOf e) with
    | .ok s => s
    | _ => ⟨[], []⟩
  id := e
  sizes := exAxs.map Axis.nel
  visit := fun _ _ => false
  points := fun _ => [⟨1/2, 2, ()⟩]

theorem exBuilt (hw : ∀ ax ∈ exAxs, WF ax) (e : List Int) (he : InBox (exAxs.map Axis.nel) e) : Built exAxs exBC 1 none e (exBuiltElt e) := by
  refine ⟨le_refl _, rfl, rfl, rfl, exCtxOf e, rfl, rfl, rfl, trivial, ?_⟩
  obtain ⟨s, h, -⟩ := C36_constrained_in_every_element exAxs (fun ax h => (hw ax h).toPreWF) e (elemRange hw he) (exCtxOf e) rfl exBC rfl none trivial
  show build (exCtxOf e) = .ok (match build (exCtxOf e) with | .ok s => s | _ => ⟨[], []⟩)
  rw [h]

/-- Nodes of the low side are constrained, the others are free, and a node of the high side carries a load. -/
example : prescribedAt exAxs exBC none ([2, 0], 0) = some 5 ∧ prescribedAt exAxs exBC none ([2, 1], 0) = none ∧
    loads exAxs 1 exBuiltElt [2, 2] 0 ≠ 0 ∧ multiplicity exAxs [2, 0] = 3 := by decide +kernel

/-- The theorems apply to it, on 4 processes, with the nonlinear residual `u_i² - 4`. -/
example : ∃ Ls : List (Layout Rat), Setup exactGuess2 exactGuess3 false 4 [2,2] [exAx0, exAx1] exAxs Ls ∧
    ∀ hist pw w vecU junk u, Represents exAxs Ls 1 vecU u →
    ∃ F, computeFunction Ls hist 1 ⟨exBuiltElt, pw, w⟩ (fun _ U A => .ok fun i => A i + (U.getD i.toNat 0 * U.getD i.toNat 0 - 4)) vecU junk = .ok F ∧
      (Represents exAxs Ls 1 F (fun _ _ => 0) ↔ Satisfies exAxs exBC 1 none u ∧ AtFree exAxs exBC 1 none
        (weak exAxs 1 exBuiltElt fun e _ i => (valuesOf false exAxs 1 u e).getD i.toNat 0 * (valuesOf false exAxs 1 u e).getD i.toNat 0 - 4)
        (loads exAxs 1 exBuiltElt)) := by
  obtain ⟨Ls, S⟩ := exSetup exactGuess2 exactGuess3
  refine ⟨Ls, S, fun hist pw w vecU junk u hu => ?_⟩
  exact C80_function S (exBuilt (Prb.setup_wf S)) _ (fun _ U i => U.getD i.toNat 0 * U.getD i.toNat 0 - 4) (by
    intro U p A hA
    exact ⟨_, rfl, fun i h0 h1 => by rw [hA i h0 h1, zero_add]⟩) hist pw w vecU junk u hu

/-- A callback of a system: the mass-like matrix with 1 everywhere and the right-hand side `i`. -/
example : FillsSys (V := Rat) (P := Unit) (unknowns exAxs 1) (unknowns exAxs 1) (fun _ A B => .ok (fun i => A i + 1, fun i => B i + i)) (fun _ _ => 1) (fun _ i => i) := by
  intro p A B hA hB
  exact ⟨_, _, rfl, fun i h0 h1 => by rw [hA i h0 h1, zero_add], fun i h0 h1 => by rw [hB i h0 h1, zero_add]⟩

/-- The rate of the zero field at the constrained node `(2,0)` is not zero. -/
example : ∃ Ls : List (Layout Rat), Setup exactGuess2 exactGuess3 false 4 [2,2] [exAx0, exAx1] exAxs Ls ∧
    ∃ vecU, Represents exAxs Ls 1 vecU (fun _ _ => (0:Rat)) ∧ ∀ hist pw w junk, ∃ G g,
      computeRHSFunction Ls hist 1 ⟨exBuiltElt, pw, w⟩ (fun _ _ U A => .ok fun i => A i + U.getD i.toNat 0) 0 vecU junk = .ok G ∧
      Represents exAxs Ls 1 G g ∧ g [2, 0] 0 ≠ 0 := by
  obtain ⟨Ls, S⟩ := exSetup exactGuess2 exactGuess3
  obtain ⟨vecU, hu⟩ := represents_exists S 1 (fun _ _ => (0:Rat))
  refine ⟨Ls, S, vecU, hu, fun hist pw w junk => ?_⟩
  exact C81_rate_refuted S (exBuilt (Prb.setup_wf S)) _ (fun _ _ U i => U.getD i.toNat 0) (by
    intro t U p A hA
    exact ⟨_, rfl, fun i h0 h1 => by rw [hA i h0 h1, zero_add]⟩) hist pw w 0 vecU junk _ hu [2, 0] 0
    (by rw [show exAxs.map Axis.nnp = [6,3] by decide +kernel]; exact .cons (by omega) (.cons (by omega) .nil)) (by omega) 5
    (by decide +kernel) (by norm_num)

end PetIGA.Drv
