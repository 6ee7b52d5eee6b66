import Verif.Model.Minimal
import Verif.Props.Primal
import Mathlib.LinearAlgebra.LinearIndependent.Basic
import Mathlib.Tactic.Linarith

/-!
C118: the near null space made with -iga_set_bddc_minimal.
-/

set_option linter.unusedSectionVars false

namespace PetIGA.BDDC
open PetIGA.Lay PetIGA.Grid PetIGA.Spec PetIGA.Ax PetIGA.Part

variable {n : Nat}

/-- The vectors are orthogonal to each other. -/
def Orthogonal (l : List (Fin n → ℝ)) : Prop := l.Pairwise fun v w => v ⬝ᵥ w = 0

/-- Unit or zero. -/
def UnitOrZero (l : List (Fin n → ℝ)) : Prop := ∀ v ∈ l, v ⬝ᵥ v = 1 ∨ v = 0

/-- All linear combinations of vectors of a list. -/
def spanOf (l : List (Fin n → ℝ)) : Submodule ℝ (Fin n → ℝ) := Submodule.span ℝ {v | v ∈ l}

theorem dot_sum (l : List (Fin n → ℝ)) (w : Fin n → ℝ) : l.sum ⬝ᵥ w = (l.map fun d => d ⬝ᵥ w).sum := by
  induction l with
  | nil => simp
  | cons a t ih => simp [add_dotProduct, ih]

theorem proj_dot {l : List (Fin n → ℝ)} (ho : Orthogonal l) (hu : UnitOrZero l) (v : Fin n → ℝ) :
    ∀ d ∈ l, (l.map fun e => (-1 * (e ⬝ᵥ v)) * (e ⬝ᵥ d)).sum = -(v ⬝ᵥ d) := by
  induction l with
  | nil => simp
  | cons a t ih =>
    intro d hd
    unfold Orthogonal at ho
    rw [List.pairwise_cons] at ho
    simp only [List.map_cons, List.sum_cons]
    rcases List.mem_cons.1 hd with rfl | hd
    · have : (t.map fun e => (-1 * (e ⬝ᵥ v)) * (e ⬝ᵥ d)).sum = 0 := by
        apply List.sum_eq_zero
        intro x hx
        obtain ⟨e, he, rfl⟩ := List.mem_map.1 hx
        rw [dotProduct_comm e d, ho.1 e he, mul_zero]
      rw [this, dotProduct_comm v d]
      rcases hu d (by simp) with h | h
      · rw [h]; ring
      · simp [h]
    · rw [ho.1 d hd, mul_zero, zero_add]
      exact ih ho.2 (fun v hv => hu v (by simp [hv])) d hd

theorem reduce_orthogonal {l : List (Fin n → ℝ)} (ho : Orthogonal l) (hu : UnitOrZero l) (v : Fin n → ℝ) :
    ∀ d ∈ l, reduceBy l v ⬝ᵥ d = 0 := by
  intro d hd
  have := proj_dot ho hu v d hd
  rw [reduceBy, add_dotProduct, dot_sum, List.map_map]
  have h2 : (fun x => x ⬝ᵥ d) ∘ (fun e : Fin n → ℝ => (-1 * (e ⬝ᵥ v)) • e) = fun e => (-1 * (e ⬝ᵥ v)) * (e ⬝ᵥ d) := by
    funext e; simp [smul_dotProduct]
  rw [h2, this]; ring

theorem reduce_mem (l : List (Fin n → ℝ)) (v : Fin n → ℝ) :
    (l.map fun d => (-1 * (d ⬝ᵥ v)) • d).sum ∈ spanOf l := by
  apply list_sum_mem
  intro x hx
  obtain ⟨d, hd, rfl⟩ := List.mem_map.1 hx
  exact Submodule.smul_mem _ _ (Submodule.subset_span hd)

theorem dot_self_nonneg (w : Fin n → ℝ) : 0 ≤ w ⬝ᵥ w := Finset.sum_nonneg fun i _ => mul_self_nonneg (w i)

theorem sqrt_dot {w : Fin n → ℝ} : Real.sqrt (w ⬝ᵥ w) = 0 ↔ w = 0 := by
  rw [Real.sqrt_eq_zero (dot_self_nonneg w), dotProduct_self_eq_zero]

theorem normalize_unit (w : Fin n → ℝ) : normalize w ⬝ᵥ normalize w = 1 ∨ normalize w = 0 := by
  unfold normalize
  split_ifs with h
  · exact Or.inr (sqrt_dot.1 h)
  · left
    have := Real.mul_self_sqrt (dot_self_nonneg w)
    rw [smul_dotProduct, dotProduct_smul]
    simp only [smul_eq_mul]
    field_simp
    rw [sq]; exact this.symm

theorem normalize_smul (w : Fin n → ℝ) : ∃ c : ℝ, c ≠ 0 ∧ normalize w = c • w := by
  unfold normalize
  split_ifs with h
  · exact ⟨1, one_ne_zero, by simp⟩
  · exact ⟨_, one_div_ne_zero h, rfl⟩

theorem spanOf_append (l : List (Fin n → ℝ)) (v : Fin n → ℝ) : spanOf (l ++ [v]) = spanOf l ⊔ Submodule.span ℝ {v} := by
  unfold spanOf
  rw [← Submodule.span_union]
  congr 1
  ext x; simp [or_comm]

theorem span_step (l : List (Fin n → ℝ)) (v : Fin n → ℝ) :
    spanOf (l ++ [normalize (reduceBy l v)]) = spanOf l ⊔ Submodule.span ℝ {v} := by
  rw [spanOf_append]
  obtain ⟨c, hc, e⟩ := normalize_smul (reduceBy l v)
  rw [e, Submodule.span_singleton_smul_eq (IsUnit.mk0 c hc)]
  have hm := reduce_mem l v
  obtain ⟨p, hp⟩ : ∃ p, p = (l.map fun d => (-1 * (d ⬝ᵥ v)) • d).sum := ⟨_, rfl⟩
  have hr : reduceBy l v = v + p := by rw [hp]; rfl
  rw [← hp] at hm
  rw [hr]
  apply le_antisymm
  · refine sup_le le_sup_left ?_
    rw [Submodule.span_singleton_le_iff_mem]
    exact Submodule.add_mem _ (Submodule.mem_sup_right (Submodule.mem_span_singleton_self v)) (Submodule.mem_sup_left hm)
  · refine sup_le le_sup_left ?_
    rw [Submodule.span_singleton_le_iff_mem]
    have : v = (v + p) - p := by simp
    rw [this]
    exact Submodule.sub_mem _ (Submodule.mem_sup_right (by rw [← this]; exact Submodule.mem_span_singleton_self _)) (Submodule.mem_sup_left hm)

theorem orth_span {l : List (Fin n → ℝ)} {w : Fin n → ℝ} (h : ∀ d ∈ l, w ⬝ᵥ d = 0) {x : Fin n → ℝ} (hx : x ∈ spanOf l) : w ⬝ᵥ x = 0 := by
  unfold spanOf at hx
  induction hx using Submodule.span_induction with
  | mem x hx => exact h x hx
  | zero => simp
  | add x y _ _ hx hy => rw [dotProduct_add, hx, hy, add_zero]
  | smul a x _ hx => rw [dotProduct_smul, hx, smul_zero]

theorem step_zero {l : List (Fin n → ℝ)} (ho : Orthogonal l) (hu : UnitOrZero l) (v : Fin n → ℝ) :
    normalize (reduceBy l v) = 0 ↔ v ∈ spanOf l := by
  obtain ⟨c, hc, e⟩ := normalize_smul (reduceBy l v)
  rw [e, smul_eq_zero_iff_right hc]
  have hm := reduce_mem l v
  constructor
  · intro h
    have : v = - (l.map fun d => (-1 * (d ⬝ᵥ v)) • d).sum := by
      rw [reduceBy] at h
      exact eq_neg_of_add_eq_zero_left h
    rw [this]; exact Submodule.neg_mem _ hm
  · intro h
    have : reduceBy l v ∈ spanOf l := Submodule.add_mem _ h hm
    exact dotProduct_self_eq_zero.1 (orth_span (reduce_orthogonal ho hu v) this)

/-- What the loop keeps: `out` made of `vs`. -/
structure Made (vs out : List (Fin n → ℝ)) : Prop where
  length : out.length = vs.length
  orthogonal : Orthogonal out
  unit : UnitOrZero out
  spans : ∀ k, spanOf (out.take k) = spanOf (vs.take k)
  zero : ∀ k (h : k < out.length) (h' : k < vs.length), out[k] = 0 ↔ vs[k] ∈ spanOf (vs.take k)

theorem made_nil : Made ([] : List (Fin n → ℝ)) [] :=
  ⟨rfl, List.Pairwise.nil, by simp [UnitOrZero], by simp, by simp⟩

theorem made_step {vs out : List (Fin n → ℝ)} (M : Made vs out) (v : Fin n → ℝ) :
    Made (vs ++ [v]) (out ++ [normalize (reduceBy out v)]) := by
  have hl := M.length
  have hs : spanOf out = spanOf vs := by
    have := M.spans out.length
    rwa [List.take_length, hl, List.take_length] at this
  refine ⟨by simp [hl], ?_, ?_, ?_, ?_⟩
  · unfold Orthogonal
    rw [List.pairwise_append]
    refine ⟨M.orthogonal, by simp, ?_⟩
    intro a ha b hb
    rw [List.mem_singleton] at hb
    obtain ⟨c, -, e⟩ := normalize_smul (reduceBy out v)
    rw [hb, e, dotProduct_comm, smul_dotProduct, reduce_orthogonal M.orthogonal M.unit v a ha, smul_zero]
  · intro w hw
    rcases List.mem_append.1 hw with h | h
    · exact M.unit w h
    · rw [List.mem_singleton] at h; rw [h]; exact normalize_unit _
  · intro k
    by_cases hk : k ≤ out.length
    · rw [List.take_append_of_le_length hk, List.take_append_of_le_length (hl ▸ hk)]; exact M.spans k
    · rw [List.take_of_length_le (by simp; omega), List.take_of_length_le (by simp; omega), span_step, spanOf_append, hs]
  · intro k h h'
    by_cases hk : k < out.length
    · rw [List.getElem_append_left hk, List.getElem_append_left (hl ▸ hk), List.take_append_of_le_length (by omega)]
      exact M.zero k hk _
    · have : k = out.length := by simp at h; omega
      subst this
      have e1 : (out ++ [normalize (reduceBy out v)])[out.length] = normalize (reduceBy out v) := by simp
      have e2 : (vs ++ [v])[out.length]'h' = v := by simp [hl]
      have e3 : (vs ++ [v]).take out.length = vs := by rw [hl]; simp
      rw [e1, e2, e3, ← hs]
      exact step_zero M.orthogonal M.unit v

theorem made (vs : List (Fin n → ℝ)) : Made vs (orthonormalize vs) := by
  have : ∀ (l vs out : List (Fin n → ℝ)), Made vs out →
      Made (vs ++ l) (l.foldl (fun done v => done ++ [normalize (reduceBy done v)]) out) := by
    intro l
    induction l with
    | nil => intro vs out h; simpa using h
    | cons a t ih =>
      intro vs out h
      have := ih (vs ++ [a]) _ (made_step h a)
      simpa using this
  simpa [orthonormalize] using this vs [] [] made_nil

/-- **C118** (part): the vectors handed to the solver are orthogonal to each other, each has length one or is zero, and for every
`k` the first `k` have the same linear combinations as the first `k` given vectors. A vector is zero exactly when the given vector is
a combination of the earlier ones. -/
theorem C118_orthonormal_partial (vs : List (Fin n → ℝ)) :
    (orthonormalize vs).length = vs.length ∧
    (orthonormalize vs).Pairwise (fun v w => v ⬝ᵥ w = 0) ∧
    (∀ v ∈ orthonormalize vs, v ⬝ᵥ v = 1 ∨ v = 0) ∧
    (∀ k, Submodule.span ℝ {v | v ∈ (orthonormalize vs).take k} = Submodule.span ℝ {v | v ∈ vs.take k}) ∧
    ∀ k (h : k < (orthonormalize vs).length) (h' : k < vs.length),
      (orthonormalize vs)[k] = 0 ↔ vs[k] ∈ Submodule.span ℝ {v | v ∈ vs.take k} :=
  ⟨(made vs).length, (made vs).orthogonal, (made vs).unit, (made vs).spans, (made vs).zero⟩

/-- **C118** (part): if no given vector is a combination of the earlier ones, the vectors handed to the solver are orthonormal. -/
theorem C118_independent_partial (vs : List (Fin n → ℝ))
    (hi : ∀ k (h : k < vs.length), vs[k] ∉ Submodule.span ℝ {v | v ∈ vs.take k}) :
    (orthonormalize vs).Pairwise (fun v w => v ⬝ᵥ w = 0) ∧ ∀ v ∈ orthonormalize vs, v ⬝ᵥ v = 1 := by
  have M := made vs
  refine ⟨M.orthogonal, ?_⟩
  intro v hv
  rcases M.unit v hv with h | h
  · exact h
  · obtain ⟨k, hk, rfl⟩ := List.getElem_of_mem hv
    exact absurd ((M.zero k hk (M.length ▸ hk)).1 h) (hi k (M.length ▸ hk))

/-- The vectors, with the option for volume terms. -/
noncomputable def minimalSpace (mask : Fin n → ℝ) (cnst : Bool) (nn : List (Fin n → ℝ)) (vol : List Int) : Res (List (Fin n → ℝ)) :=
  (minimalVecs mask cnst nn vol).bind fun vs => .ok (orthonormalize vs)

/-- **C118** (part): the option is rejected exactly when it names a vector the near null space does not have; otherwise the space handed to
the solver consists of the combinations of the masked vectors and of the named vectors. -/
theorem C118_space_partial (mask : Fin n → ℝ) (cnst : Bool) (nn : List (Fin n → ℝ)) (vol : List Int) :
    ((∃ i ∈ vol, i < 0 ∨ (nn.length : Int) ≤ i) → minimalSpace mask cnst nn vol = .err .user) ∧
    ((∀ i ∈ vol, 0 ≤ i ∧ i < (nn.length : Int)) → ∃ out, minimalSpace mask cnst nn vol = .ok out ∧
      out.Pairwise (fun v w => v ⬝ᵥ w = 0) ∧
      Submodule.span ℝ {v | v ∈ out} = Submodule.span ℝ
        {v | (cnst = true ∧ v = mask) ∨ (∃ w ∈ nn, v = fun x => w x * mask x) ∨
          ∃ i : Nat, (i : Int) ∈ vol ∧ ∃ h : i < nn.length, v = nn[i]}) := by
  constructor
  · rintro ⟨i, hi, h⟩
    have : (vol.any fun i => decide (i < 0 ∨ i ≥ nn.length)) = true := by
      rw [List.any_eq_true]; exact ⟨i, hi, by simpa using h⟩
    rw [minimalSpace, minimalVecs, this]; rfl
  · intro hv
    have : (vol.any fun i => decide (i < 0 ∨ i ≥ nn.length)) = false := by
      rw [List.any_eq_false]
      intro i hi
      have := hv i hi
      simp; omega
    refine ⟨_, by rw [minimalSpace, minimalVecs, this]; rfl, (made _).orthogonal, ?_⟩
    obtain ⟨vs, hvs⟩ : ∃ vs, vs = ((if cnst then [mask] else []) ++ nn.map (fun v => v * mask) ++ vol.map fun i => nn.getD i.toNat 0) := ⟨_, rfl⟩
    rw [← hvs]
    have := (made vs).spans vs.length
    rw [← (made vs).length, List.take_length, (made vs).length, List.take_length] at this
    unfold spanOf at this
    rw [this]
    congr 1
    ext v
    rw [hvs]
    simp only [Set.mem_setOf_eq, List.mem_append, List.mem_map]
    constructor
    · rintro ((h | ⟨w, hw, rfl⟩) | ⟨i, hi, rfl⟩)
      · cases cnst <;> simp at h
        exact Or.inl ⟨rfl, h⟩
      · exact Or.inr (Or.inl ⟨w, hw, rfl⟩)
      · have hb := hv i hi
        have hl : i.toNat < nn.length := by omega
        exact Or.inr (Or.inr ⟨i.toNat, by rwa [Int.toNat_of_nonneg hb.1], hl, by simp [List.getD, hl]⟩)
    · rintro (⟨h, rfl⟩ | ⟨w, hw, rfl⟩ | ⟨i, hi, hl, rfl⟩)
      · exact Or.inl (Or.inl (by simp [h]))
      · exact Or.inl (Or.inr ⟨w, hw, rfl⟩)
      · exact Or.inr ⟨i, hi, by simp [List.getD, hl]⟩

/-! ### The mask -/

variable {K : Type} [Field K] [LinearOrder K] [IsStrictOrderedRing K]

/-- A direction that is not divided. -/
def Whole (d : Dir) : Prop :=
  d.nodeLstart = 0 ∧ d.nodeGstart = 0 ∧ d.nodeLwidth = d.nodeSize ∧ d.nodeGwidth = d.nodeSize ∧ 2 ≤ d.nodeSize

theorem whole_one {ax : Axis K} (h : WF ax) (hc : Condition false ax) (hp : ax.periodic = false) (hN : 1 ≤ ax.nel) : Whole (galDir ax 1 0) := by
  have g := gal_ok h hc (P := 1) (r := 0) le_rfl hN le_rfl (by omega)
  obtain ⟨l1, l2⟩ := gal_last h hc (P := 1) le_rfl hN
  rw [show (1:Int) - 1 = 0 by ring] at l1 l2
  have f := g.first.2 rfl
  have s := g.same
  obtain ⟨n1, n2, n3, n4⟩ := nnp_bounds h
  have := n3 hp
  have d1 := h.legal.degree
  have d2 := h.legal.enough
  have e : (galDir ax 1 0).nodeSize = ax.nnp := rfl
  refine ⟨by omega, f, by omega, by omega, by omega⟩

theorem prod_one : ∀ {Ns Ps : List Int}, Fits Ns Ps → prod Ps = 1 → ∀ P ∈ Ps, P = 1
  | _, _, .nil, _ => by simp
  | _, _, .cons (b := P) (l₂ := Ps) h t, e => by
    have hp : 1 ≤ prod Ps := by
      clear e
      induction t with
      | nil => simp [prod]
      | cons h' _ ih => simp only [prod]; nlinarith [h'.1]
    simp only [prod] at e
    have h1 := h.1
    have e1 : P = 1 := by nlinarith
    have e2 : prod Ps = 1 := by rw [e1] at e; omega
    intro Q hQ
    rcases List.mem_cons.1 hQ with rfl | hQ
    · exact e1
    · exact prod_one t e2 Q hQ

theorem whole_mid {d : Dir} (h : Whole d) : midOf d = d.nodeSize - 1 ∧ fixOf d = 1 := by
  obtain ⟨a, b, c, e, f⟩ := h
  unfold midOf fixOf
  rw [a, b, c, e]
  simp

theorem whole_marked {ds : List Dir} (h : ∀ d ∈ ds, Whole d) {z : List Int} (hz : InBox (ds.map Dir.nodeSize) z) :
    marked ds z = true ↔ ∃ (i : Nat) (d : Dir), ds[i]? = some d ∧ z[i]? = some (d.nodeSize - 1) := by
  have hl : z.length = ds.length := by have := hz.length_eq; simpa using this.symm
  have hget : ∀ (j : Nat) (hj : j < ds.length), 0 ≤ z[j]'(by omega) ∧ z[j]'(by omega) < ds[j].nodeSize := by
    intro j hj
    have := hz.get (i := j) (by simpa using hj) (by omega)
    simpa using this
  unfold marked
  rw [List.any_eq_true]
  constructor
  · rintro ⟨i, hi, hm⟩
    rw [List.mem_range] at hi
    have e1 : ds[i]? = some ds[i] := List.getElem?_eq_getElem hi
    have e2 : z[i]? = some (z[i]'(by omega)) := List.getElem?_eq_getElem (by omega)
    unfold onMid at hm
    rw [e1, e2] at hm
    simp only [Bool.and_eq_true, decide_eq_true_eq] at hm
    refine ⟨i, ds[i], e1, ?_⟩
    rw [e2, hm.1.2.2, (whole_mid (h _ (List.getElem_mem hi))).1]
  · rintro ⟨i, d, e1, e2⟩
    obtain ⟨hi, rfl⟩ := List.getElem?_eq_some_iff.1 e1
    refine ⟨i, List.mem_range.2 hi, ?_⟩
    have hd := h _ (List.getElem_mem hi)
    obtain ⟨m1, m2⟩ := whole_mid hd
    have f0 : (ds.map fixOf).getD 0 0 = 1 := by
      cases ds with
      | nil => simp at hi
      | cons a t => simp [(whole_mid (h a (by simp))).2]
    unfold onMid
    rw [e1, e2]
    simp only [Bool.and_eq_true, decide_eq_true_eq, f0, m1]
    obtain ⟨a, b, c, e, f⟩ := hd
    refine ⟨⟨by omega, by omega, trivial⟩, ?_⟩
    rw [List.all_eq_true]
    intro j hj
    rw [List.mem_range] at hj
    rw [List.getElem?_eq_getElem hj, List.getElem?_eq_getElem (show j < z.length by omega)]
    simp only [Bool.or_eq_true, decide_eq_true_eq]
    right
    have := hget j hj
    obtain ⟨a', b', c', e', f'⟩ := h _ (List.getElem_mem hj)
    omega

theorem sub_zero_all : ∀ {ds : List Dir} {z : List Int}, (∀ d ∈ ds, d.nodeGstart = 0) → z.length = ds.length →
    List.zipWith (fun i (d : Dir) => i - d.nodeGstart) z ds = z
  | [], [], _, _ => rfl
  | d :: ds, i :: z, h, hl => by
    simp only [List.zipWith_cons_cons, h d (by simp), sub_zero]
    rw [sub_zero_all (fun e he => h e (by simp [he])) (by simpa using hl)]

theorem nodes_whole : ∀ {ds : List Dir}, (∀ d ∈ ds, Whole d) → ∀ x, x ∈ nodesOf ds ↔ InBox (ds.map Dir.nodeSize) x := by
  intro ds h x
  unfold nodesOf
  rw [mem_box]
  induction ds generalizing x with
  | nil => constructor <;> (intro h; cases h; constructor)
  | cons d ds ih =>
    obtain ⟨a, b, c, e, f⟩ := h d (by simp)
    have ih := ih fun d hd => h d (by simp [hd])
    constructor
    · intro H
      cases H with
      | cons h1 h2 => exact .cons (by simp only at h1; omega) ((ih _).1 h2)
    · intro H
      cases H with
      | cons h1 h2 => exact .cons (by simp only; omega) ((ih _).2 h2)

theorem filter_one {α : Type} [DecidableEq α] {l : List α} (hn : l.Nodup) {z : α} (hz : z ∈ l) (p : α → Bool) (hp : ∀ x ∈ l, p x = true → x = z) :
    (l.filter p).length = if p z then 1 else 0 := by
  by_cases h : p z = true
  · rw [if_pos h]
    have : l.filter p = l.filter (· == z) := by
      apply List.filter_congr
      intro x hx
      by_cases e : x = z
      · subst e; simp [h]
      · simp only [beq_eq_false_iff_ne.2 e]
        by_contra hc
        exact e (hp x hx (by simpa using hc))
    rw [this, ← List.count_eq_length_filter, List.count_eq_one_of_mem hn hz]
  · rw [if_neg h, List.length_eq_zero_iff, List.filter_eq_nil_iff]
    intro x hx hc
    exact h (hp x hx hc ▸ hc)

/-- **C118** (part, one process, no periodic direction): the mask removes exactly the nodes at the end of a direction. -/
theorem C118_one_process_partial {g2 : Guess2} {g3 : Guess3} {procs : List Int} {axes axs : List (Axis K)} {Ls : List (Layout K)}
    (S : Asm.Setup g2 g3 false 1 procs axes axs Ls) (hp : ∀ ax ∈ axs, ax.periodic = false) (z : List Int)
    (hz : InBox (axs.map Axis.nnp) z) :
    mask Ls z = true ↔ ∀ (i : Nat) (ax : Axis K), axs[i]? = some ax → z[i]? ≠ some (ax.nnp - 1) := by
  obtain ⟨hlen, hget⟩ := S.ranks
  have hl1 : Ls.length = 1 := by omega
  obtain ⟨L, rfl⟩ := List.length_eq_one_iff.1 hl1
  have hs := hget 0 L rfl
  have hax : L.axes = axs := Asm.stage1_axes hs S.set
  obtain ⟨hw, hf, hpr, hall, -⟩ := stage1_all S.reached hs
  have hP := prod_one hf hpr
  have hC : Coords (fun ax P r d => P = 1 → Whole d ∧ d.nodeSize = ax.nnp) L.axes L.procs L.ranks L.dir :=
    coords_stage1 (colloc := false) (Q := fun ax => Condition false ax ∧ ax.periodic = false)
      (fun ax P r hw hq hP hN h0 h1 e => by
        subst e
        have : r = 0 := by omega
        subst this
        exact ⟨whole_one hw hq.1 hq.2 hN, rfl⟩) S.reached hs (fun ax h => ⟨S.cond ax (hax ▸ h), hp ax (hax ▸ h)⟩)
  have hds : ∀ d ∈ L.dir, Whole d := by
    intro d hd
    obtain ⟨i, hi, rfl⟩ := List.getElem_of_mem hd
    obtain ⟨ax, P, r, -, h2, -, h4⟩ := (coords_get hC).2 i _ (List.getElem?_eq_getElem hi)
    exact (h4 (hP P (List.mem_of_getElem? h2))).1
  have hsz : L.dir.map Dir.nodeSize = axs.map Axis.nnp := by
    rw [← hax]
    apply List.ext_getElem?
    intro i
    rw [List.getElem?_map, List.getElem?_map]
    by_cases hi : i < L.dir.length
    · obtain ⟨ax, P, r, h1, h2, -, h4⟩ := (coords_get hC).2 i _ (List.getElem?_eq_getElem hi)
      rw [h1, List.getElem?_eq_getElem hi]
      simp [(h4 (hP P (List.mem_of_getElem? h2))).2]
    · rw [List.getElem?_eq_none (by omega), List.getElem?_eq_none (by rw [(coords_get hC).1]; omega)]
      rfl
  have hz' : InBox (L.dir.map Dir.nodeSize) z := hsz ▸ hz
  have hzl : z.length = L.dir.length := by have := hz'.length_eq; simpa using this.symm
  have hmem := nodes_whole hds
  have hnd : (nodesOf L.dir).Nodup := nodup_box _
  have hself : ∀ x ∈ nodesOf L.dir, wrapAll (L.dir.map Dir.nodeSize) x = x := fun x hx => wrapAll_self ((hmem x).1 hx)
  have hfat : fat [L] z = 1 := by
    simp only [fat, List.map_cons, List.map_nil, List.sum_cons, List.sum_nil, add_zero]
    rw [filter_one hnd ((hmem z).2 hz') _ (fun x hx h => by rw [decide_eq_true_eq, hself x hx] at h; exact h)]
    rw [if_pos (by rw [decide_eq_true_eq]; exact wrapAll_self hz')]
  have hm : marks [L] z = if marked L.dir z then 1 else 0 := by
    simp only [marks, List.map_cons, List.map_nil, List.sum_cons, List.sum_nil, add_zero]
    rw [filter_one hnd ((hmem z).2 hz') _ (fun x hx h => by
      rw [Bool.and_eq_true, decide_eq_true_eq, hself x hx] at h; exact h.1)]
    rw [sub_zero_all (fun d hd => (hds d hd).2.1) hzl]
    simp [wrapAll_self hz']
  have key := whole_marked hds hz'
  have conv : (∃ (i : Nat) (d : Dir), L.dir[i]? = some d ∧ z[i]? = some (d.nodeSize - 1)) ↔
      ∃ (i : Nat) (ax : Axis K), axs[i]? = some ax ∧ z[i]? = some (ax.nnp - 1) := by
    have e : ∀ i : Nat, (L.dir[i]?).map Dir.nodeSize = (axs[i]?).map Axis.nnp := by
      intro i
      have := congrArg (fun l => l[i]?) hsz
      simpa using this
    constructor
    · rintro ⟨i, d, h1, h2⟩
      have := e i
      rw [h1] at this
      cases h3 : axs[i]? with
      | none => rw [h3] at this; simp at this
      | some ax => rw [h3] at this; simp at this; exact ⟨i, ax, h3, by rw [h2, this]⟩
    · rintro ⟨i, ax, h1, h2⟩
      have := e i
      rw [h1] at this
      cases h3 : L.dir[i]? with
      | none => rw [h3] at this; simp at this
      | some d => rw [h3] at this; simp at this; exact ⟨i, d, h3, by rw [h2, this]⟩
  unfold mask
  rw [decide_eq_true_eq, hfat, hm]
  have : (∀ (i : Nat) (ax : Axis K), axs[i]? = some ax → z[i]? ≠ some (ax.nnp - 1)) ↔ ¬ marked L.dir z = true := by
    rw [key, conv]
    push Not
    rfl
  rw [this]
  cases marked L.dir z <;> simp

/-! ### One dimension -/

theorem gal_width {ax : Axis K} (h : WF ax) {P r : Int} (hP : 1 ≤ P) (hN : P ≤ ax.nel) (h0 : 0 ≤ r) (h1 : r < P) :
    2 ≤ (galDir ax P r).nodeGwidth := by
  obtain ⟨a, b, c, d, e⟩ := bal_range hP hN h0 h1
  have hp := h.legal.degree
  dsimp only [galDir]
  by_cases hw : (dist1D P r ax.nel).1 = 1
  · rw [hw, show (dist1D P r ax.nel).2 + 1 - 1 = (dist1D P r ax.nel).2 by ring]; omega
  · have := sp_lt h.toPreWF (i := (dist1D P r ax.nel).2) (j := (dist1D P r ax.nel).2 + (dist1D P r ax.nel).1 - 1) (by omega) (by omega) (by omega)
    omega

theorem line_mid {ax : Axis K} (h : WF ax) (hc : Condition false ax) {P r : Int} (hP : 1 ≤ P) (hN : P ≤ ax.nel)
    (h0 : 0 ≤ r) (h1 : r < P) (hp : ax.periodic = false) (z : Int) :
    marked [galDir ax P r] [z - (galDir ax P r).nodeGstart] = true ↔ plane (galDir ax P r) = z := by
  have w := gal_width h hP hN h0 h1
  have ok := (gal_plane h hc hP hN h0 h1).1
  obtain ⟨s, l, le, gs, f, la, -⟩ := ok.gal
  obtain ⟨d, hd⟩ : ∃ d, d = galDir ax P r := ⟨_, rfl⟩
  rw [← hd] at w s l le gs f ok ⊢
  have i := ok.inside
  have lw : d.nodeLstart + d.nodeLwidth ≤ d.nodeGstart + d.nodeGwidth := by omega
  have m : midOf d = plane d - d.nodeGstart := by
    unfold midOf plane
    rw [Int.tdiv_eq_ediv_of_nonneg (by omega)]
    omega
  have m0 : 0 < midOf d := by
    rw [m]; unfold plane; omega
  have m1 : midOf d < d.nodeGwidth - 1 + fixOf d := by
    rw [m]; unfold plane fixOf
    simp only
    split_ifs <;> omega
  simp [marked, onMid, List.range_succ, m0, m1]
  rw [m]
  constructor <;> intro h <;> omega

/-- A process has a node of a one-dimensional discretisation in its box. -/
def sees (L : Layout K) (z : Int) : Bool := L.dir.all fun d => decide (d.nodeGstart ≤ z ∧ z < d.nodeGstart + d.nodeGwidth)

theorem nodes_line (d : Dir) (x : List Int) : x ∈ nodesOf [d] ↔ ∃ t, x = [t] ∧ d.nodeGstart ≤ t ∧ t < d.nodeGstart + d.nodeGwidth := by
  unfold nodesOf
  rw [mem_box]
  constructor
  · intro H
    cases H with
    | cons h1 h2 => cases h2; exact ⟨_, rfl, h1⟩
  · rintro ⟨t, rfl, h⟩
    exact .cons h .nil

theorem filter_at {l : List (List Int)} (hn : l.Nodup) {z : List Int} (p : List Int → Bool) (hp : ∀ x ∈ l, p x = true → x = z) :
    (l.filter p).length = if z ∈ l ∧ p z = true then 1 else 0 := by
  by_cases hz : z ∈ l
  · rw [filter_one hn hz p hp]; simp [hz]
  · rw [if_neg (fun h => hz h.1), List.length_eq_zero_iff, List.filter_eq_nil_iff]
    intro x hx hc
    exact hz (hp x hx hc ▸ hx)

theorem sum_ind {α : Type} (l : List α) (p : α → Prop) [DecidablePred p] :
    (l.map fun a => if p a then 1 else 0).sum = (l.filter fun a => decide (p a)).length := by
  induction l with
  | nil => rfl
  | cons a t ih =>
    by_cases h : p a
    · simp [h, ih]; omega
    · simp [h, ih]

theorem count_le_one {α : Type} {l : List α} {p : α → Prop} [DecidablePred p] (h : l.Pairwise fun a b => ¬ (p a ∧ p b)) :
    (l.filter fun a => decide (p a)).length = if ∃ a ∈ l, p a then 1 else 0 := by
  induction l with
  | nil => simp
  | cons a t ih =>
    rw [List.pairwise_cons] at h
    have ih := ih h.2
    by_cases ha : p a
    · have : ¬ ∃ b ∈ t, p b := fun ⟨b, hb, hpb⟩ => h.1 b hb ⟨ha, hpb⟩
      rw [if_neg this] at ih
      simp [ha, ih]
    · simp only [List.filter_cons, ha, decide_false, ih, List.mem_cons, exists_eq_or_imp, false_or]
      simpa using ih

/-- **C118** (part, one dimension, not periodic, any number of processes): the mask keeps a node exactly when it is used by one process
and is neither the middle of an overlap nor the end of the domain, or when it is used by two processes and is the middle of their
overlap. (`plane` of the last process is the end of the domain.) -/
theorem C118_line_partial {g2 : Guess2} {g3 : Guess3} {size : Int} {procs : List Int} {a ax : Axis K} {Ls : List (Layout K)}
    (S : Asm.Setup g2 g3 false size procs [a] [ax] Ls) (hp : ax.periodic = false) (z : Int) (hz : 0 ≤ z ∧ z < ax.nnp) :
    mask Ls [z] = true ↔ (Ls.filter fun L => sees L z).length = if ∃ L ∈ Ls, L.dir.map plane = [z] then 2 else 1 := by
  obtain ⟨hlen, hget⟩ := S.ranks
  have hne := S.nonempty
  have h00 : 0 < Ls.length := by omega
  obtain ⟨L0, hL0⟩ : ∃ L, Ls[0]? = some L := ⟨Ls[0], List.getElem?_eq_getElem h00⟩
  have hs0 := hget 0 L0 hL0
  have hax : L0.axes = [ax] := Asm.stage1_axes hs0 S.set
  obtain ⟨hw, hf, hpr, hall, huniq⟩ := stage1_all S.reached hs0
  rw [hax] at hw hf hall huniq
  have hwf := hw ax (by simp)
  have hcd := S.cond ax (by simp)
  obtain ⟨P, hP⟩ : ∃ P, L0.procs = [P] := by
    have := hf.length_eq
    exact List.length_eq_one_iff.1 (by simpa using this.symm)
  rw [hP] at hf hpr hall huniq
  have hPs : P = size := by simpa [prod] using hpr
  have hPf : 1 ≤ P ∧ P ≤ ax.nel := by
    cases hf with
    | cons h _ => exact h
  have each : ∀ r : Nat, r < Ls.length → ∃ (h : r < Ls.length) (c : Int), 0 ≤ c ∧ c < P ∧ Ls[r] = ⟨[ax], [P], [c], [galDir ax P c]⟩ := by
    intro r hr
    obtain ⟨c, hc, hst⟩ := hall r (by omega) (by omega)
    have := hget r Ls[r] (List.getElem?_eq_getElem hr)
    rw [hst, Res.ok.injEq] at this
    cases hc with
    | cons h1 h2 =>
      cases h2
      exact ⟨hr, _, h1.1, h1.2, this.symm⟩
  have hmem : ∀ L ∈ Ls, ∃ c : Int, 0 ≤ c ∧ c < P ∧ L = ⟨[ax], [P], [c], [galDir ax P c]⟩ := by
    intro L hL
    obtain ⟨r, hr, rfl⟩ := List.getElem_of_mem hL
    obtain ⟨_, c, h⟩ := each r hr
    exact ⟨c, h⟩
  have range : ∀ c, 0 ≤ c → c < P → (galDir ax P c).nodeGstart + (galDir ax P c).nodeGwidth ≤ ax.nnp ∧ 0 ≤ (galDir ax P c).nodeGstart := by
    intro c h0 h1
    have := gal_ok hwf hcd hPf.1 hPf.2 h0 h1
    exact ⟨(this.last hp).1, this.gstart⟩
  have hself : ∀ c, 0 ≤ c → c < P → ∀ x ∈ nodesOf [galDir ax P c], wrapAll [ax.nnp] x = x := by
    intro c h0 h1 x hx
    obtain ⟨t, rfl, h⟩ := (nodes_line _ _).1 hx
    have := range c h0 h1
    exact wrapAll_self (.cons (by omega) .nil)
  have hzself : wrapAll [ax.nnp] [z] = [z] := wrapAll_self (.cons hz .nil)
  have hfat : fat Ls [z] = (Ls.filter fun L => decide (sees L z = true)).length := by
    rw [← sum_ind]
    unfold fat
    congr 1
    apply List.map_congr_left
    intro L hL
    obtain ⟨c, h0, h1, rfl⟩ := hmem L hL
    have hz1 : [galDir ax P c].map Dir.nodeSize = [ax.nnp] := rfl
    rw [hz1]
    have := filter_at (l := nodesOf [galDir ax P c]) (nodup_box _) (z := [z]) (fun x => decide (wrapAll [ax.nnp] x = [z]))
      (fun x hx h => by rw [decide_eq_true_eq, hself c h0 h1 x hx] at h; exact h)
    refine this.trans (if_congr ?_ rfl rfl)
    rw [nodes_line, hzself]
    simp [sees]
  have hmk : marks Ls [z] = (Ls.filter fun L => decide (L.dir.map plane = [z])).length := by
    rw [← sum_ind]
    unfold marks
    congr 1
    apply List.map_congr_left
    intro L hL
    obtain ⟨c, h0, h1, rfl⟩ := hmem L hL
    have hz1 : [galDir ax P c].map Dir.nodeSize = [ax.nnp] := rfl
    rw [hz1]
    have := filter_at (l := nodesOf [galDir ax P c]) (nodup_box _) (z := [z])
      (fun x => decide (wrapAll [ax.nnp] x = [z]) && marked [galDir ax P c] (List.zipWith (fun i d => i - d.nodeGstart) x [galDir ax P c]))
      (fun x hx h => by rw [Bool.and_eq_true, decide_eq_true_eq, hself c h0 h1 x hx] at h; exact h.1)
    refine this.trans (if_congr ?_ rfl rfl)
    have key := line_mid hwf hcd hPf.1 hPf.2 h0 h1 hp z
    have ins := (gal_plane hwf hcd hPf.1 hPf.2 h0 h1).1.inside
    rw [Bool.and_eq_true, decide_eq_true_eq]
    have e : List.zipWith (fun i (d : Dir) => i - d.nodeGstart) [z] [galDir ax P c] = [z - (galDir ax P c).nodeGstart] := rfl
    rw [e, key, nodes_line, hzself]
    simp only [List.map_cons, List.map_nil, List.cons.injEq, and_true, true_and]
    constructor
    · rintro ⟨_, h⟩; exact h
    · intro h; exact ⟨⟨z, rfl, by omega⟩, h⟩
  have hpw : Ls.Pairwise fun L L' => ¬ (L.dir.map plane = [z] ∧ L'.dir.map plane = [z]) := by
    rw [List.pairwise_iff_getElem]
    intro i j hi hj hij ⟨e1, e2⟩
    obtain ⟨_, c, c0, c1, hc⟩ := each i hi
    obtain ⟨_, c', c0', c1', hc'⟩ := each j hj
    rw [hc] at e1
    rw [hc'] at e2
    simp only [List.map_cons, List.map_nil, List.cons.injEq, and_true] at e1 e2
    have ne : c ≠ c' := by
      rintro rfl
      obtain ⟨r, -, hu⟩ := huniq [c] (.cons ⟨c0, c1⟩ .nil)
      have a1 := hu i (by omega) (by omega) ⟨_, by rw [hget i _ (List.getElem?_eq_getElem hi), hc]⟩
      have a2 := hu j (by omega) (by omega) ⟨_, by rw [hget j _ (List.getElem?_eq_getElem hj), hc']⟩
      omega
    rcases lt_or_gt_of_ne ne with h | h
    · have := planes_lt hwf hcd hPf.1 hPf.2 c0 h c1'; omega
    · have := planes_lt hwf hcd hPf.1 hPf.2 c0' h c1; omega
  unfold mask
  rw [decide_eq_true_eq, hfat, hmk, count_le_one hpw]
  simp only [Bool.decide_eq_true]
  split_ifs <;> constructor <;> intro h <;> simp_all

/-! ### Where the mask is not what it is for -/

/-- The layouts of all processes, computed. -/
def layouts (colloc : Bool) (size : Nat) (procs : List Int) (axes : List (Axis K)) : List (Layout K) :=
  (List.range size).filterMap fun (r : Nat) => match stage1 exactGuess2 exactGuess3 colloc size r procs axes with
    | .ok L => some L
    | _ => none

theorem layouts_eq {colloc : Bool} {size : Nat} {procs : List Int} {axes : List (Axis K)} {Ls : List (Layout K)}
    (h : AllRanks exactGuess2 exactGuess3 colloc size procs axes Ls) : Ls = layouts colloc size procs axes := by
  obtain ⟨hl, hg⟩ := h
  have hl : Ls.length = size := by omega
  unfold layouts
  have : ∀ r ∈ List.range size, (match stage1 exactGuess2 exactGuess3 colloc size r procs axes with
    | .ok L => some L
    | _ => none) = (Ls[r]?) := by
    intro r hr
    rw [List.mem_range] at hr
    have e := List.getElem?_eq_getElem (show r < Ls.length by omega)
    rw [hg r _ e, e]
  rw [List.filterMap_congr this]
  subst hl
  clear this hg
  induction Ls using List.reverseRecOn with
  | nil => rfl
  | append_singleton l a ih =>
    rw [List.length_append, List.length_singleton, List.range_succ, List.filterMap_append]
    have : List.filterMap (fun r => (l ++ [a])[r]?) (List.range l.length) = List.filterMap (fun r => l[r]?) (List.range l.length) := by
      apply List.filterMap_congr
      intro r hr
      rw [List.mem_range] at hr
      rw [List.getElem?_append_left hr]
    rw [this, ← ih rfl]
    simp

/-- **C118** refuted at the end of the domain: with one process nothing is shared with another process, yet the last node of a line is
masked out (and the first is not). -/
theorem C118_end_refuted : ∃ Ls : List (Layout ℚ), Asm.Setup exactGuess2 exactGuess3 false 1 [1] [exAx1] [(Ax.setUp exAx1).2] Ls ∧
    mask Ls [0] = true ∧ mask Ls [1] = true ∧ mask Ls [2] = false := by
  have hL : stage1 exactGuess2 exactGuess3 false 1 0 [1] [exAx1] = .ok ⟨[(Ax.setUp exAx1).2], [1], [0], _⟩ := rfl
  obtain ⟨Ls, h⟩ := allRanks_exists exactGuess2 exactGuess3 false 1 [1] _ _ 0 (fun ax h => exAx_reached ax (by simp at h; simp [h])) hL
  have e := layouts_eq (size := 1) h
  refine ⟨Ls, ⟨fun ax h => exAx_reached ax (by simp at h; simp [h]), by simp, rfl, by omega, h, ?_⟩, ?_, ?_, ?_⟩
  · intro ax h
    simp only [List.mem_cons, List.not_mem_nil, or_false] at h
    subst h
    exact ⟨fun _ => by decide +kernel, by simp⟩
  · rw [e]; decide +kernel
  · rw [e]; decide +kernel
  · rw [e]; decide +kernel

/-- **C118** refuted for the interface of two processes: a periodic direction of degree 2 that is not divided and a direction of degree 1 that
is. The processes share exactly the nodes (i,1), and all of these are masked out, so nothing of the interface is left; if the directions
are given the other way round, five of the six are kept. -/
theorem C118_interface_refuted : ∃ Ls Ls' : List (Layout ℚ),
    Asm.Setup exactGuess2 exactGuess3 false 2 [1,2] [exAx0, exAx1] Asm.exAxs Ls ∧
    Asm.Setup exactGuess2 exactGuess3 false 2 [2,1] [exAx1, exAx0] Asm.exAxs.reverse Ls' ∧
    (∀ i ∈ List.range 6, ∀ L ∈ Ls, (nodesOf L.dir).contains [(i : Int), 1] = true) ∧
    (∀ i ∈ List.range 6, mask Ls [(i : Int), 1] = false) ∧
    ((List.range 6).filter fun i => mask Ls' [1, (i : Int)]) = [0, 2, 3, 4, 5] := by
  have hr' : ∀ ax ∈ [exAx1, exAx0], Reached ax := fun ax h => exAx_reached ax (by simp at h; simp; tauto)
  have hL : stage1 exactGuess2 exactGuess3 false 2 0 [1,2] [exAx0, exAx1] = .ok ⟨[(Ax.setUp exAx0).2, (Ax.setUp exAx1).2], [1,2], [0,0], _⟩ := rfl
  have hL' : stage1 exactGuess2 exactGuess3 false 2 0 [2,1] [exAx1, exAx0] = .ok ⟨[(Ax.setUp exAx1).2, (Ax.setUp exAx0).2], [2,1], [0,0], _⟩ := rfl
  obtain ⟨Ls, h⟩ := allRanks_exists exactGuess2 exactGuess3 false 2 [1,2] _ _ 0 exAx_reached hL
  obtain ⟨Ls', h'⟩ := allRanks_exists exactGuess2 exactGuess3 false 2 [2,1] _ _ 0 hr' hL'
  have e := layouts_eq (size := 2) h
  have e' := layouts_eq (size := 2) h'
  have hc : ∀ ax ∈ Asm.exAxs, Condition false ax := by
    intro ax h
    simp only [Asm.exAxs, List.mem_cons, List.not_mem_nil, or_false] at h
    refine ⟨fun _ => ?_, by simp⟩
    rcases h with rfl | rfl <;> decide +kernel
  refine ⟨Ls, Ls', ⟨exAx_reached, by simp, rfl, by omega, h, hc⟩, ⟨hr', by simp, rfl, by omega, h', ?_⟩, ?_, ?_, ?_⟩
  · intro ax h; exact hc ax (List.mem_reverse.1 h)
  · rw [e]; decide +kernel
  · rw [e]; decide +kernel
  · rw [e']; decide +kernel

/-- The hypotheses of `C118_independent_partial` can fail: with the mask of three nodes on one process and a volume term, a zero vector is
handed to the solver. -/
theorem C118_zero_refuted : ∃ out, minimalSpace (n := 3) ![1, 1, 0] true [![1, 0, 0]] [0] = .ok out ∧ (0 : Fin 3 → ℝ) ∈ out := by
  have e : minimalSpace (n := 3) ![1, 1, 0] true [![1, 0, 0]] [0] =
      .ok (orthonormalize [![1, 1, 0], ![1, 0, 0] * ![1, 1, 0], ![1, 0, 0]]) := by
    rw [minimalSpace, minimalVecs, if_neg (by simp)]; rfl
  refine ⟨_, e, ?_⟩
  obtain ⟨hl, -, -, -, hz⟩ := C118_orthonormal_partial (n := 3) [![1, 1, 0], ![1, 0, 0] * ![1, 1, 0], ![1, 0, 0]]
  have e1 : (![1, 0, 0] : Fin 3 → ℝ) = ![1, 0, 0] * ![1, 1, 0] := by
    funext i; fin_cases i <;> simp
  have := (hz 2 (by rw [hl]; simp) (by simp)).2 (Submodule.subset_span (List.mem_cons_of_mem _ (List.mem_cons.2 (.inl e1))))
  rw [← this]
  exact List.getElem_mem _

/-- The hypotheses of `C118_independent_partial` can be met: the constants and a linear function. -/
example : ∀ k (h : k < [![1, 1, 1], ![0, 1, 2]].length), ([![1, 1, 1], ![0, 1, 2]] : List (Fin 3 → ℝ))[k] ∉
    Submodule.span ℝ {v | v ∈ ([![1, 1, 1], ![0, 1, 2]] : List (Fin 3 → ℝ)).take k} := by
  intro k h
  have : k = 0 ∨ k = 1 := by simp at h; omega
  rcases this with rfl | rfl
  · intro hm
    simp at hm
  · intro hm
    simp only [List.take_succ_cons, List.take_zero, List.mem_singleton, Set.setOf_eq_eq_singleton, List.getElem_cons_succ, List.getElem_cons_zero,
      Submodule.mem_span_singleton] at hm
    obtain ⟨c, hc⟩ := hm
    have h0 := congrFun hc 0
    have h1 := congrFun hc 1
    simp at h0 h1
    rw [h0] at h1
    exact zero_ne_one h1

/-- A case of `C118_line_partial`: two processes on a line of two elements of degree 1 share node 1, which is the middle of their overlap. -/
example : ∃ Ls : List (Layout ℚ), Asm.Setup exactGuess2 exactGuess3 false 2 [2] [exAx1] [(Ax.setUp exAx1).2] Ls ∧
    (Ls.filter fun L => sees L 1).length = 2 ∧ (∃ L ∈ Ls, L.dir.map plane = [1]) ∧ mask Ls [1] = true := by
  have hL : stage1 exactGuess2 exactGuess3 false 2 0 [2] [exAx1] = .ok ⟨[(Ax.setUp exAx1).2], [2], [0], _⟩ := rfl
  obtain ⟨Ls, h⟩ := allRanks_exists exactGuess2 exactGuess3 false 2 [2] _ _ 0 (fun ax h => exAx_reached ax (by simp at h; simp [h])) hL
  have e := layouts_eq (size := 2) h
  refine ⟨Ls, ⟨fun ax h => exAx_reached ax (by simp at h; simp [h]), by simp, rfl, by omega, h, ?_⟩, ?_, ?_, ?_⟩
  · intro ax h
    simp only [List.mem_cons, List.not_mem_nil, or_false] at h
    subst h
    exact ⟨fun _ => by decide +kernel, by simp⟩
  · rw [e]; decide +kernel
  · rw [e]; decide +kernel
  · rw [e]; decide +kernel

end PetIGA.BDDC
