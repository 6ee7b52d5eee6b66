import Verif.Props.FixSystem
import Verif.Props.Dirichlet
import Mathlib.Data.List.Induction
/-! Property theorems about boundary conditions with collocation (C37). -/
set_option linter.unusedSectionVars false
namespace PetIGA.Fix
open PetIGA.Form PetIGA.Grid PetIGA.Spec

variable {V : Type}

/-! ### The list of constrained degrees of freedom -/

/-- The sides the tests of one node select, in order. -/
def trig : List (EDir × Nat) → List Int → List (Nat × Bool)
  | (d, i) :: ds, x :: xs =>
    (if d.offset + x = 0 then [(i, false)] else if ¬ d.periodic ∧ d.offset + x = d.size - 1 then [(i, true)] else []) ++ trig ds xs
  | _, _ => []

/-- The writes of one node. -/
def nodeWrites (c : Ctx V) (a : Int) (x : List Int) : List (Int × V) :=
  (trig c.dirs.zipIdx x).flatMap fun s => fixWrites c a (c.form.value s.1 (if s.2 then 1 else 0))

theorem collocNode_spec (c : Ctx V) (hf : FormOK c.form) {a : Int} (ha : 0 ≤ a ∧ a < c.nen) :
    ∀ (ds : List (EDir × Nat)) (x : List Int) (l : List (Int × V)), Good c.bufsize l →
    ∃ l', collocNode c a ds x l = .ok l' ∧
      FixStep c.bufsize l ((trig ds x).flatMap fun s => fixWrites c a (c.form.value s.1 (if s.2 then 1 else 0))) l' := by
  intro ds
  have hb : ∀ (i : Nat) (s : Int) (l : List (Int × V)), Good c.bufsize l → ∃ l', addFixa c a (c.form.value i s) l = .ok l' ∧
      FixStep c.bufsize l (fixWrites c a (c.form.value i s)) l' := fun i s l hl =>
    addFixa_spec c ha _ l (fun p hp => ((hf _ _).1.fields p.1 (List.mem_map.2 ⟨p, hp, rfl⟩)).1) hl
  induction ds with
  | nil => intro x l hl; exact ⟨l, rfl, FixStep.refl hl⟩
  | cons p ds ih =>
    obtain ⟨d, i⟩ := p
    intro x l hl
    cases x with
    | nil => exact ⟨l, rfl, FixStep.refl hl⟩
    | cons x xs =>
      unfold collocNode trig
      dsimp only
      by_cases h0 : d.offset + x = 0
      · rw [if_pos h0, if_pos h0]
        obtain ⟨l1, e1, s1⟩ := hb i 0 l hl
        obtain ⟨l2, e2, s2⟩ := ih xs l1 s1.good
        refine ⟨l2, by rw [e1, Res.ok_bind, e2], ?_⟩
        rw [List.flatMap_append]
        simp only [List.flatMap_cons, List.flatMap_nil, List.append_nil]
        exact s1.trans s2
      · rw [if_neg h0, if_neg h0]
        by_cases h1 : ¬ d.periodic = true ∧ d.offset + x = d.size - 1
        · rw [if_pos h1, if_pos h1]
          obtain ⟨l1, e1, s1⟩ := hb i 1 l hl
          obtain ⟨l2, e2, s2⟩ := ih xs l1 s1.good
          refine ⟨l2, by rw [e1, Res.ok_bind, e2], ?_⟩
          rw [List.flatMap_append]
          simp only [List.flatMap_cons, List.flatMap_nil, List.append_nil]
          exact s1.trans s2
        · rw [if_neg h1, if_neg h1]
          obtain ⟨l2, e2, s2⟩ := ih xs l hl
          exact ⟨l2, by rw [Res.ok_bind, e2], s2⟩

theorem colloc_loop (c : Ctx V) (hf : FormOK c.form) : ∀ (xs : List (List Int)) (k : Nat) (l : List (Int × V)),
    k + xs.length ≤ c.nen → Good c.bufsize l →
    ∃ l', forM' (fun x (s : Int × List (Int × V)) => do
        let l ← collocNode c s.1 c.dirs.zipIdx x s.2
        Res.ok (s.1 + 1, l)) xs ((k : Int), l) = .ok (((k + xs.length : Nat) : Int), l') ∧
      FixStep c.bufsize l ((xs.zipIdx k).flatMap fun p => nodeWrites c (p.2 : Int) p.1) l' := by
  intro xs
  induction xs with
  | nil => intro k l _ hl; exact ⟨l, rfl, FixStep.refl hl⟩
  | cons x xs ih =>
    intro k l hk hl
    simp only [List.length_cons] at hk
    obtain ⟨l1, e1, s1⟩ := collocNode_spec c hf (a := (k : Int)) (by omega) c.dirs.zipIdx x l hl
    obtain ⟨l2, e2, s2⟩ := ih (k+1) l1 (by omega) s1.good
    refine ⟨l2, ?_, ?_⟩
    · unfold forM'
      dsimp only
      rw [e1, Res.ok_bind, Res.ok_bind]
      have : ((k : Int) + 1) = ((k+1 : Nat) : Int) := by push_cast; rfl
      rw [this, e2, List.length_cons]
      congr 3
      omega
    · rw [List.zipIdx_cons, List.flatMap_cons]
      exact s1.trans s2

variable [Zero V] [One V] [Add V] [Mul V]

/-- The box of all nodes of the element. -/
def nbox (c : Ctx V) : List (Int × Int) := c.dirs.map fun d => (0, (d.nen : Int))

theorem pos_nbox (c : Ctx V) : ∀ (x : List Int), InBox (nens c.dirs) x → pos (nbox c) x = flat (nens c.dirs) x := by
  intro x hx
  have h : ∀ (ds : List EDir) (x : List Int), InBox (nens ds) x →
      flat ((ds.map fun d => ((0:Int), (d.nen : Int))).map Prod.snd) (rel ((ds.map fun d => ((0:Int), (d.nen : Int))).map Prod.fst) x) =
      flat (nens ds) x := by
    intro ds
    induction ds with
    | nil => intro x hx; cases hx; rfl
    | cons d ds ih =>
      intro x hx
      cases hx with
      | cons h1 h2 =>
        rename_i a l
        have := ih l h2
        simp only [List.map_cons, rel, List.zipWith_cons_cons, flat, nens, sub_zero] at this ⊢
        rw [this]
  exact h c.dirs x hx

theorem mem_nbox (c : Ctx V) (x : List Int) : x ∈ box (nbox c) ↔ InBox (nens c.dirs) x := by
  rw [mem_box, ← full_box]
  have : (c.dirs.map fun d => ((0 : Int), (d.nen : Int) - 0)) = nbox c := by
    unfold nbox
    apply List.map_congr_left
    intro d _
    rw [sub_zero]
  rw [this]

theorem foldl_single {α γ : Type} (f : γ → α → γ) (x : α) : ∀ (l : List α) (o : γ), l.Nodup → x ∈ l →
    (∀ y ∈ l, y ≠ x → ∀ o, f o y = o) → l.foldl f o = f o x := by
  have hid : ∀ (l : List α) (o : γ), (∀ y ∈ l, ∀ o, f o y = o) → l.foldl f o = o := by
    intro l
    induction l with
    | nil => intro o _; rfl
    | cons a l ih => intro o h; rw [List.foldl_cons, h a (by simp)]; exact ih o fun y hy => h y (by simp [hy])
  intro l
  induction l with
  | nil => intro o _ h; simp at h
  | cons a l ih =>
    intro o hn hx h
    rw [List.nodup_cons] at hn
    rw [List.foldl_cons]
    by_cases ha : a = x
    · subst ha
      exact hid l _ fun y hy => h y (by simp [hy]) (fun e => hn.1 (e ▸ hy))
    · have hxl : x ∈ l := by rcases List.mem_cons.1 hx with h | h; exact absurd h.symm ha; exact h
      rw [h a (by simp) ha]
      exact ih o hn.2 hxl fun y hy => h y (by simp [hy])

/-- The nodes of the grid with collocation: `0 … size-1` per direction. -/
def pointDirs (ds : List EDir) : List NodeDir := ds.map fun d => ⟨0, d.size - 1, d.periodic⟩

/-- The test of the code for a side. -/
def hit (ds : List EDir) (x : List Int) (s : Nat × Bool) : Bool :=
  match ds[s.1]?, x[s.1]? with
  | some d, some xi => if s.2 then (!d.periodic && decide (d.offset + xi = d.size - 1)) else decide (d.offset + xi = 0)
  | _, _ => false

theorem trig_gen (full : List EDir) (fx : List Int) : ∀ (ds : List EDir) (x : List Int) (k : Nat), (∀ j, full[k+j]? = ds[j]?) →
    (∀ j, fx[k+j]? = x[j]?) → x.length = ds.length → (∀ d ∈ ds, d.size ≠ 1) →
    trig (ds.zipIdx k) x = ((List.range' k ds.length).flatMap fun i => [(i, false), (i, true)]).filter (hit full fx) := by
  intro ds
  induction ds with
  | nil => intro x k _ _ _ _; rfl
  | cons d ds ih =>
    intro x k h hx hl hs
    cases x with
    | nil => simp at hl
    | cons xi x =>
      have hd : full[k]? = some d := by simpa using h 0
      have hxk : fx[k]? = some xi := by simpa using hx 0
      have h1 := ih x (k+1) (fun j => by
        have := h (j+1)
        rw [List.getElem?_cons_succ] at this
        rw [← this]; congr 1; omega) (fun j => by
        have := hx (j+1)
        rw [List.getElem?_cons_succ] at this
        rw [← this]; congr 1; omega) (by simpa using hl) (fun d hd => hs d (by simp [hd]))
      rw [List.zipIdx_cons, List.length_cons, List.range'_succ, List.flatMap_cons, List.filter_append, ← h1]
      show (if d.offset + xi = 0 then [(k, false)] else if ¬ d.periodic ∧ d.offset + xi = d.size - 1 then [(k, true)] else []) ++
        trig (ds.zipIdx (k+1)) x = _
      congr 1
      have hsz := hs d (by simp)
      have e1 : hit full fx (k, false) = decide (d.offset + xi = 0) := by unfold hit; rw [hd, hxk]; rfl
      have e2 : hit full fx (k, true) = (!d.periodic && decide (d.offset + xi = d.size - 1)) := by unfold hit; rw [hd, hxk]; rfl
      rw [List.filter_cons, List.filter_cons, List.filter_nil, e1, e2]
      by_cases q1 : d.offset + xi = 0
      · have q2 : ¬ d.offset + xi = d.size - 1 := by omega
        rw [if_pos q1]
        simp [q1, q2]
        omega
      · rw [if_neg q1]
        have q0 : decide (d.offset + xi = 0) = false := by simpa using q1
        rw [q0]
        cases hp : d.periodic <;> by_cases q2 : d.offset + xi = d.size - 1 <;> simp [q2]

/-- What one node contributes at one degree of freedom. -/
theorem nodeWrites_get (c : Ctx V) (hf : FormOK c.form) {x y : List Int} (hx : InBox (nens c.dirs) x)
    (hy : InBox (nens c.dirs) y) {f : Int} (hfr : 0 ≤ f ∧ f < c.dof) (o : Option V) :
    (nodeWrites c (flat (nens c.dirs) y) y).foldl (ovw (flat (nens c.dirs) x * c.dof + f)) o =
      if x = y then (((trig c.dirs.zipIdx x).reverse.findSome? fun s =>
        tableGet (c.form.value s.1 (if s.2 then 1 else 0)) f).map (fval c (flat (nens c.dirs) x) f)).or o else o := by
  classical
  unfold nodeWrites
  rw [foldl_flatMap']
  have hstep : ∀ (o : Option V) (s : Nat × Bool),
      (fixWrites c (flat (nens c.dirs) y) (c.form.value s.1 (if s.2 then 1 else 0))).foldl (ovw (flat (nens c.dirs) x * c.dof + f)) o =
      (if x = y then (tableGet (c.form.value s.1 (if s.2 then 1 else 0)) f).map (fval c (flat (nens c.dirs) x) f) else none).or o := by
    intro o s
    have hw := writes_nodup (c := c) (g := fval c) (hf s.1 (if s.2 then 1 else 0)).1 (xs := [y]) (by simpa using hy) (by simp)
    have hg := writes_get (c := c) (g := fval c) (hf s.1 (if s.2 then 1 else 0)).1 (xs := [y]) (by simpa using hy) (by simp) hx hfr
    have e : fixWrites c (flat (nens c.dirs) y) (c.form.value s.1 (if s.2 then 1 else 0)) =
        writes c (fval c) (c.form.value s.1 (if s.2 then 1 else 0)) [y] := by
      unfold writes
      rw [List.flatMap_cons, List.flatMap_nil, List.append_nil, node_flat]
      rfl
    rw [e, foldl_ovw hw, hg]
    congr 1
    simp only [List.mem_singleton]
  rw [foldl_congr_mem (g := fun o s => (if x = y then (tableGet (c.form.value s.1 (if s.2 then 1 else 0)) f).map
    (fval c (flat (nens c.dirs) x) f) else none).or o) _ o (fun o s _ => hstep o s)]
  rw [foldl_or]
  by_cases h : x = y
  · simp only [if_pos h]
    rw [findSome_map, h]
  · simp only [if_neg h]
    have : ∀ (l : List (Nat × Bool)), l.findSome? (fun _ => (none : Option V)) = none := by
      intro l; rw [List.findSome?_eq_none_iff]; simp
    rw [this]; rfl

/-- **C37**, the part that holds, residual and Jacobian evaluation: with collocation, if no value is set on the left
side of a periodic direction, the list of constrained degrees of freedom contains exactly what the conditions prescribe at the
nodes of the grid (`0 … size-1` per direction), with fields `≥ dof` ignored.  Missing is the case of a
value set on the left side of a periodic direction (see `C37_periodic_refuted`). -/
theorem C37_fix_list_partial (c : Ctx V) (ops : List (Op V)) (hform : c.form = run create ops) (hs : ∀ d ∈ c.dirs, d.size ≠ 1)
    (hper : ∀ (i : Nat) (d : EDir), c.dirs[i]? = some d → d.periodic = true → ∀ f, inForce i 0 f (valueEvents ops) = none) :
    ∃ s, buildColloc c = .ok s ∧ s.flux = [] ∧ Good c.bufsize s.fix ∧
      ∀ (x : List Int) (f : Int), InBox (nens c.dirs) x → (0 ≤ f ∧ f < c.dof) →
      tableGet s.fix (flat (nens c.dirs) x * c.dof + f) =
        (nodePrescribed (pointDirs c.dirs) (fun a s k => inForce a s k (valueEvents ops)) (gridNode c.dirs x) f).map fun v =>
          match c.table with
          | some U => U (f + c.mapping (flat (nens c.dirs) x) * c.dof)
          | none => v := by
  obtain ⟨hv, -, hok⟩ := C30_last_setting_wins ops
  have hok' : FormOK c.form := by rw [hform]; exact hok
  have hlen : (box (nbox c)).length = c.nen := by
    have h1 := length_box (nbox c) (by
      intro p hp; obtain ⟨d, -, rfl⟩ := List.mem_map.1 hp; exact Int.natCast_nonneg _)
    have h2 : prod ((nbox c).map Prod.snd) = prod (nens c.dirs) := by
      unfold nbox nens; rw [List.map_map]; rfl
    rw [h2, ← nen_prod] at h1
    unfold Ctx.nen
    exact_mod_cast h1
  obtain ⟨l, e, hs1⟩ := colloc_loop c hok' (box (nbox c)) 0 [] (by rw [hlen]; omega) (good_nil _)
  refine ⟨⟨l, []⟩, ?_, rfl, hs1.good, ?_⟩
  · unfold buildColloc
    have : ((0 : Nat) : Int) = 0 := rfl
    rw [this] at e
    show (forM' _ (box (nbox c)) (0, []) >>= _) = _
    rw [e, Res.ok_bind]
  · intro x f hx hfr
    rw [hs1.get, zipIdx_box, List.flatMap_map, foldl_flatMap',
      foldl_single _ x (box (nbox c)) _ (nodup_box _) ((mem_nbox c x).2 hx)]
    · dsimp only
      rw [Int.toNat_of_nonneg (pos_get ((mem_nbox c x).2 hx)).1, pos_nbox c x hx, nodeWrites_get c hok' hx hx hfr, if_pos rfl]
      show Option.or _ none = _
      rw [Option.or_none]
      have hxl : x.length = c.dirs.length := by
        have := List.Forall₂.length_eq hx
        simpa [nens] using this.symm
      have ht : trig c.dirs.zipIdx x = (sides c.dirs.length).filter (hit c.dirs x) := by
        rw [trig_gen c.dirs x c.dirs x 0 (by simp) (by simp) hxl hs]
        unfold sides
        rw [List.range_eq_range']
      rw [ht, ← List.filter_reverse, findSome_filter]
      have hfe : (fun v => match c.table with
          | some U => U (f + c.mapping (flat (nens c.dirs) x) * c.dof)
          | none => v) = fval c (flat (nens c.dirs) x) f := rfl
      rw [hfe]
      congr 1
      unfold nodePrescribed
      have hl : (pointDirs c.dirs).length = c.dirs.length := by simp [pointDirs]
      rw [hl]
      apply findSome_congr
      intro q hq
      have hlt := mem_sides.1 (List.mem_reverse.1 hq)
      rw [hform]
      simp only [hv]
      obtain ⟨i, b⟩ := q
      dsimp only at hlt ⊢
      have hd := List.getElem?_eq_getElem hlt
      have hxi := List.getElem?_eq_getElem (by omega : i < x.length)
      unfold hit OnGridSide pointDirs gridNode
      rw [List.getElem?_map, List.getElem?_zipWith, hd, hxi]
      simp only [Option.map_some]
      by_cases hp : c.dirs[i].periodic = true
      · cases b
        · have := hper i _ hd hp f
          simp [this]
        · simp
      · cases b <;> simp [hp]
    · intro y hy hyx o
      have hy' := (mem_nbox c y).1 hy
      dsimp only
      rw [Int.toNat_of_nonneg (pos_get hy).1, pos_nbox c y hy', nodeWrites_get c hok' hx hy' hfr, if_neg (fun h => hyx h.symm)]

/-! ### The linear system -/

theorem forM'_append {α S : Type} (f : α → S → Res S) : ∀ (l l' : List α) (s : S),
    forM' f (l ++ l') s = forM' f l s >>= forM' f l' := by
  intro l
  induction l with
  | nil => intro l' s; rfl
  | cons a l ih =>
    intro l' s
    rw [List.cons_append]
    unfold forM'
    cases f a s with
    | ok t => rw [Res.ok_bind, Res.ok_bind]; exact ih l' t
    | err e => rfl
    | ub => rfl

theorem forM'_flatMap {α β S : Type} (f : β → S → Res S) (g : α → List β) : ∀ (l : List α) (s : S),
    forM' f (l.flatMap g) s = forM' (fun a => forM' f (g a)) l s := by
  intro l
  induction l with
  | nil => intro s; rfl
  | cons a l ih =>
    intro s
    rw [List.flatMap_cons, forM'_append]
    show (forM' f (g a) s >>= _) = (forM' f (g a) s >>= _)
    congr 1
    funext t
    exact ih t

theorem forM'_map {α β S : Type} (f : β → S → Res S) (g : α → β) : ∀ (l : List α) (s : S),
    forM' f (l.map g) s = forM' (fun a => f (g a)) l s := by
  intro l
  induction l with
  | nil => intro s; rfl
  | cons a l ih =>
    intro s
    rw [List.map_cons]
    show (f (g a) s >>= _) = (f (g a) s >>= _)
    congr 1
    funext t
    exact ih t

/-- A loop of stores inside an array. -/
theorem store_loop (n : Int) (pos : Nat → Int) (val : Nat → V) (hinj : ∀ i j, pos i = pos j → i = j) : ∀ (m : Nat) (A : Int → V),
    (∀ i < m, 0 ≤ pos i ∧ pos i < n) →
    ∃ A', forM' (fun (j : Nat) A => store n A (pos j) (val j)) (List.range m) A = .ok A' ∧
      (∀ i < m, A' (pos i) = val i) ∧ ∀ k, (∀ i < m, k ≠ pos i) → A' k = A k := by
  intro m
  induction m with
  | zero => intro A _; exact ⟨A, rfl, by simp, by simp⟩
  | succ m ih =>
    intro A h
    obtain ⟨A1, e, h1, h2⟩ := ih A (fun i hi => h i (by omega))
    have hm := h m (by omega)
    refine ⟨upd A1 (pos m) (val m), ?_, ?_, ?_⟩
    · rw [List.range_succ, forM'_append, e, Res.ok_bind]
      show (store n A1 (pos m) (val m) >>= fun s => Res.ok s) = _
      unfold store
      rw [if_pos hm]; rfl
    · intro i hi
      unfold upd
      by_cases him : pos i = pos m
      · rw [if_pos him, hinj i m him]
      · rw [if_neg him]
        exact h1 i (by
          rcases Nat.lt_succ_iff_lt_or_eq.1 hi with h | h
          · exact h
          · exact absurd (by rw [h]) him)
    · intro k hk
      unfold upd
      rw [if_neg (hk m (by omega))]
      exact h2 k fun i hi => hk i (by omega)

theorem setRow_spec {nen dof : Nat} (hnen : 1 ≤ nen) (row : Int → V) {f : Int} (hf : 0 ≤ f ∧ f < dof) (v : V) (s : (Int → V) × (Int → V)) :
    ∃ s', setRow nen dof row f v s = .ok s' ∧
      (∀ a : Nat, a < nen → ∀ g : Int, (0 ≤ g ∧ g < dof) →
        s'.1 (f * (nen * dof : Int) + (a * dof + g)) = if g = f then row a else 0) ∧
      (∀ f' : Int, f' ≠ f → ∀ j : Int, (0 ≤ j ∧ j < (nen * dof : Int)) →
        s'.1 (f' * (nen * dof : Int) + j) = s.1 (f' * (nen * dof : Int) + j)) ∧
      ∀ f' : Int, s'.2 f' = if f' = f then v else s.2 f' := by
  have hN : ∀ k : Int, (0 ≤ k ∧ k < (nen * dof : Int)) → 0 ≤ f * (nen * dof : Int) + k ∧ f * (nen * dof : Int) + k < (nen * dof : Int) * (nen * dof : Int) := by
    intro k hk
    have h0 : (0:Int) ≤ nen * dof := by positivity
    have h1 : (dof : Int) ≤ nen * dof := by
      have : (1:Int) * dof ≤ nen * dof := Int.mul_le_mul_of_nonneg_right (by omega) (by omega)
      omega
    have h2 : 0 ≤ f * (nen * dof : Int) := Int.mul_nonneg hf.1 h0
    have h3 : (f + 1) * (nen * dof : Int) ≤ (nen * dof : Int) * (nen * dof : Int) := Int.mul_le_mul_of_nonneg_right (by omega) h0
    have h4 : (f + 1) * (nen * dof : Int) = f * (nen * dof : Int) + (nen * dof : Int) := by ring
    omega
  have hkey : ∀ a : Nat, a < nen → ∀ g : Int, (0 ≤ g ∧ g < dof) → 0 ≤ (a : Int) * dof + g ∧ (a : Int) * dof + g < (nen * dof : Int) := by
    intro a ha g hg
    have := key_range (nen := nen) (dof := dof) (a := (a:Int)) (f := g) (by omega) hg
    push_cast at this
    exact this
  obtain ⟨K1, e1, a1, b1⟩ := store_loop ((nen * dof : Int) * (nen * dof : Int)) (fun j => f * (nen * dof : Int) + (j : Int)) (fun _ => 0)
    (by intro i j h; omega) (nen * dof) s.1 (by
      intro i hi; exact hN i ⟨by omega, by exact_mod_cast hi⟩)
  obtain ⟨K2, e2, a2, b2⟩ := store_loop ((nen * dof : Int) * (nen * dof : Int)) (fun a => f * (nen * dof : Int) + (a : Int) * dof + f) (fun a => row a)
    (by
      intro i j h
      have : (i:Int) * dof + f = (j:Int) * dof + f := by linarith
      have := (key_inj hf hf this).1
      exact_mod_cast this) nen K1 (by
      intro i hi
      have := hN _ (hkey i hi f hf)
      rw [Int.add_assoc]; exact this)
  refine ⟨(K2, upd s.2 f v), ?_, ?_, ?_, ?_⟩
  · unfold setRow
    dsimp only
    rw [e1, Res.ok_bind, e2, Res.ok_bind]
    unfold store
    have h1 : (dof : Int) ≤ nen * dof := by
      have : (1:Int) * dof ≤ nen * dof := Int.mul_le_mul_of_nonneg_right (by omega) (by omega)
      omega
    rw [if_pos (by omega), Res.ok_bind]
  · intro a ha g hg
    by_cases hgf : g = f
    · subst hgf
      rw [if_pos rfl]
      have := a2 a ha
      dsimp only at this ⊢
      rw [← Int.add_assoc]; exact this
    · rw [if_neg hgf]
      dsimp only
      rw [b2]
      · have hk := hkey a ha g hg
        have := a1 ((a:Int) * dof + g).toNat (by
          have : (((a:Int) * dof + g).toNat : Int) < ((nen * dof : Nat) : Int) := by push_cast; omega
          exact_mod_cast this)
        rw [Int.toNat_of_nonneg hk.1] at this
        exact this
      · intro i hi h
        rw [Int.add_assoc] at h
        exact hgf (key_inj hg hf (Int.add_left_cancel h)).2
  · intro f' hf' j hj
    have hne : ∀ k : Int, (0 ≤ k ∧ k < (nen * dof : Int)) → f' * (nen * dof : Int) + j ≠ f * (nen * dof : Int) + k := by
      intro k hk h
      have := key_inj (dof := nen * dof) (a := f') (f := j) (a' := f) (f' := k) (by push_cast; exact hj) (by push_cast; exact hk)
        (by push_cast; exact h)
      exact hf' this.1
    dsimp only
    rw [b2, b1]
    · intro i hi; exact hne i ⟨by omega, by exact_mod_cast hi⟩
    · intro i hi; rw [Int.add_assoc]; exact hne _ (hkey i hi f hf)
  · intro f'; rfl

/-- A sequence of row replacements: the last one for a field decides. -/
theorem rows_spec {nen dof : Nat} (hnen : 1 ≤ nen) (s : (Int → V) × (Int → V)) (ws : List (Int × (Int → V) × V)) :
    (∀ w ∈ ws, 0 ≤ w.1 ∧ w.1 < dof) →
    ∃ s', forM' (fun (w : Int × (Int → V) × V) s => setRow nen dof w.2.1 w.1 w.2.2 s) ws s = .ok s' ∧
      ∀ f : Int, (0 ≤ f ∧ f < dof) →
      (∀ a : Nat, a < nen → ∀ g : Int, (0 ≤ g ∧ g < dof) → s'.1 (f * (nen * dof : Int) + (a * dof + g)) =
        match ws.foldl (ovw f) none with
        | some rv => if g = f then rv.1 a else 0
        | none => s.1 (f * (nen * dof : Int) + (a * dof + g))) ∧
      s'.2 f = match ws.foldl (ovw f) none with
        | some rv => rv.2
        | none => s.2 f := by
  induction ws using List.reverseRecOn with
  | nil => intro _; exact ⟨s, rfl, fun f _ => ⟨fun _ _ _ _ => rfl, rfl⟩⟩
  | append_singleton ws w ih =>
    intro h
    obtain ⟨s1, e1, h1⟩ := ih fun w hw => h w (by simp [hw])
    obtain ⟨s2, e2, a2, b2, c2⟩ := setRow_spec hnen w.2.1 (h w (by simp)) w.2.2 s1
    refine ⟨s2, ?_, ?_⟩
    · rw [forM'_append, e1, Res.ok_bind]
      show (setRow nen dof w.2.1 w.1 w.2.2 s1 >>= fun s => Res.ok s) = _
      rw [e2]; rfl
    · intro f hf
      have e : (ws ++ [w]).foldl (ovw f) none = if f = w.1 then some w.2 else ws.foldl (ovw f) none := by
        rw [List.foldl_append]; rfl
      by_cases hw : f = w.1
      · rw [e, if_pos hw]
        subst hw
        exact ⟨fun a ha g hg => a2 a ha g hg, by rw [c2, if_pos rfl]⟩
      · rw [e, if_neg hw]
        refine ⟨fun a ha g hg => ?_, by rw [c2, if_neg hw]; exact (h1 f hf).2⟩
        rw [b2 f hw _ (by
          have := key_range (nen := nen) (dof := dof) (a := (a:Int)) (f := g) (by omega) hg
          push_cast at this
          exact this)]
        exact (h1 f hf).1 a ha g hg

/-- The row replacements of one side. -/
def sideRows (c : Ctx V) (nrm : Nat → Bool → Int → V) (shape : Int → V) (s : Nat × Bool) : List (Int × (Int → V) × V) :=
  ((c.form.load s.1 (if s.2 then 1 else 0)).map fun b => (b.1, nrm s.1 s.2, b.2)) ++
  ((c.form.value s.1 (if s.2 then 1 else 0)).map fun b => (b.1, shape, b.2))

/-- The point is at the end of the direction. -/
def atEnd (ds : List EDir) (s : Nat × Bool) : Bool :=
  match ds[s.1]? with
  | some d => if s.2 then decide (d.id = d.size - 1) else decide (d.id = 0)
  | none => false

theorem tableGet_map {W : Type} (h : V → W) (l : List (Int × V)) (k : Int) :
    tableGet (l.map fun b => (b.1, h b.2)) k = (tableGet l k).map h := by
  induction l with
  | nil => rfl
  | cons p l ih =>
    unfold tableGet at ih ⊢
    rw [List.map_cons, List.find?_cons, List.find?_cons]
    cases p.1 == k
    · exact ih
    · rfl

theorem sideRows_get (c : Ctx V) (hf : FormOK c.form) (nrm : Nat → Bool → Int → V) (shape : Int → V) (s : Nat × Bool) (f : Int)
    (o : Option ((Int → V) × V)) :
    (sideRows c nrm shape s).foldl (ovw f) o =
      (((tableGet (c.form.value s.1 (if s.2 then 1 else 0)) f).map fun v => (shape, v)).or
       ((tableGet (c.form.load s.1 (if s.2 then 1 else 0)) f).map fun v => (nrm s.1 s.2, v))).or o := by
  unfold sideRows
  have h1 : ((((c.form.load s.1 (if s.2 then 1 else 0)).map fun b => (b.1, nrm s.1 s.2, b.2))).map Prod.fst).Nodup := by
    rw [List.map_map]; exact (hf s.1 (if s.2 then 1 else 0)).2.distinct
  have h2 : ((((c.form.value s.1 (if s.2 then 1 else 0)).map fun b => (b.1, shape, b.2))).map Prod.fst).Nodup := by
    rw [List.map_map]; exact (hf s.1 (if s.2 then 1 else 0)).1.distinct
  rw [List.foldl_append, foldl_ovw h1, foldl_ovw h2,
    tableGet_map (fun v => (nrm s.1 s.2, v)), tableGet_map (fun v => (shape, v)), Option.or_assoc]

theorem zip_sides {α : Type} (full : List EDir) (G : Nat × Bool → List α) :
    ∀ (ds : List EDir) (k : Nat), (∀ j, full[k+j]? = ds[j]?) →
    ((ds.zipIdx k).flatMap fun d => [(d, false), (d, true)]).flatMap
        (fun p => if p.1.1.id = (if p.2 then p.1.1.size - 1 else 0) then G (p.1.2, p.2) else []) =
      (((List.range' k ds.length).flatMap fun i => [(i, false), (i, true)]).filter (atEnd full)).flatMap G := by
  intro ds
  induction ds with
  | nil => intro k _; rfl
  | cons d ds ih =>
    intro k h
    have hd : full[k]? = some d := by simpa using h 0
    have h1 := ih (k+1) (fun j => by
        have := h (j+1)
        rw [List.getElem?_cons_succ] at this
        rw [← this]; congr 1; omega)
    rw [List.zipIdx_cons, List.length_cons, List.range'_succ]
    rw [List.flatMap_cons (xs := List.zipIdx ds (k+1)), List.flatMap_cons (xs := List.range' (k+1) ds.length), List.flatMap_append, List.filter_append, List.flatMap_append, ← h1]
    congr 1
    have e1 : atEnd full (k, false) = decide (d.id = 0) := by unfold atEnd; rw [hd]; rfl
    have e2 : atEnd full (k, true) = decide (d.id = d.size - 1) := by unfold atEnd; rw [hd]; rfl
    rw [List.filter_cons, List.filter_cons, List.filter_nil, e1, e2]
    simp only [List.flatMap_cons, List.flatMap_nil, List.append_nil]
    by_cases q1 : d.id = 0 <;> by_cases q2 : d.id = d.size - 1 <;> simp [q1, q2] <;> simp_all

/-- **C37**, the part that holds, linear systems: if no condition is set on a periodic direction and every field of a condition on
a side is below `dof`, collocation replaces equation `f` of the point by the value or normal derivative row of
the last side that has a condition on `f`, and leaves it as it is if there is none. -/
theorem C37_system_partial (c : Ctx V) (ops : List (Op V)) (hform : c.form = run create ops) (hn : ∀ d ∈ c.dirs, 1 ≤ d.nen)
    (nrm : Nat → Bool → Int → V) (shape : Int → V)
    (hdof : ∀ (i s f : Int) (v : V), inForce i s f (valueEvents ops) = some v ∨ inForce i s f (loadEvents ops) = some v → f < c.dof)
    (hper : ∀ (i : Nat) (d : EDir), c.dirs[i]? = some d → d.periodic = true → ∀ s f : Int,
      inForce i s f (valueEvents ops) = none ∧ inForce i s f (loadEvents ops) = none) (K F : Int → V) :
    ∃ K' F', fixSystemColloc c nrm shape K F = .ok (K', F') ∧ ∀ f : Int, (0 ≤ f ∧ f < c.dof) →
      match pointCondition (specDirs c.dirs) (fun a s k => inForce a s k (valueEvents ops))
          (fun a s k => inForce a s k (loadEvents ops)) f with
      | some (s, isValue, v) => F' f = v ∧ ∀ a : Nat, a < c.nen → ∀ g : Int, (0 ≤ g ∧ g < c.dof) →
          K' (f * (c.nen * c.dof) + (a * c.dof + g)) = if g = f then (if isValue then shape a else nrm s.1 s.2 a) else 0
      | none => F' f = F f ∧ ∀ a : Nat, a < c.nen → ∀ g : Int, (0 ≤ g ∧ g < c.dof) →
          K' (f * (c.nen * c.dof) + (a * c.dof + g)) = K (f * (c.nen * c.dof) + (a * c.dof + g)) := by
  obtain ⟨hv, hl, hok⟩ := C30_last_setting_wins ops
  have hok' : FormOK c.form := by rw [hform]; exact hok
  have hnen : 1 ≤ c.nen := by
    have h1 : ∀ x ∈ nens c.dirs, (1:Int) ≤ x := by
      intro x hx; obtain ⟨d, hd, rfl⟩ := List.mem_map.1 hx; have := hn d hd; omega
    have h2 := nen_prod c.dirs
    have h3 : ∀ l : List Int, (∀ x ∈ l, (1:Int) ≤ x) → 1 ≤ prod l := by
      intro l
      induction l with
      | nil => intro _; decide
      | cons a l ih =>
        intro h
        have ha := h a (by simp)
        have hb := ih fun x hx => h x (by simp [hx])
        show 1 ≤ a * prod l
        nlinarith
    have := h3 _ h1
    rw [← h2] at this
    unfold Ctx.nen
    exact_mod_cast this
  -- the code as one sequence of rows
  have hcode : fixSystemColloc c nrm shape K F = forM' (fun (w : Int × (Int → V) × V) s => setRow c.nen c.dof w.2.1 w.1 w.2.2 s)
      (((sides c.dirs.length).filter (atEnd c.dirs)).flatMap fun s => sideRows c nrm shape s) (K, F) := by
    have hz := zip_sides c.dirs (fun s => sideRows c nrm shape s) c.dirs 0 (by simp)
    have hs : sides c.dirs.length = (List.range' 0 c.dirs.length).flatMap fun i => [(i, false), (i, true)] := by
      unfold sides
      rw [List.range_eq_range']
    rw [hs, ← hz, forM'_flatMap]
    unfold fixSystemColloc
    congr 1
    funext p s
    dsimp only
    by_cases h : p.1.1.id = (if p.2 then p.1.1.size - 1 else 0)
    · rw [if_pos h, if_pos h]
      unfold sideRows
      rw [forM'_append, forM'_map]
      congr 1
      funext t
      rw [forM'_map]
    · rw [if_neg h, if_neg h]; rfl
  have hr : ∀ w ∈ (((sides c.dirs.length).filter (atEnd c.dirs)).flatMap fun s => sideRows c nrm shape s), 0 ≤ w.1 ∧ w.1 < c.dof := by
    intro w hw
    obtain ⟨s, -, hw⟩ := List.mem_flatMap.1 hw
    unfold sideRows at hw
    rcases List.mem_append.1 hw with hw | hw
    · obtain ⟨b, hb, rfl⟩ := List.mem_map.1 hw
      have ht := (hok' s.1 (if s.2 then 1 else 0)).2
      refine ⟨(ht.fields b.1 (List.mem_map.2 ⟨b, hb, rfl⟩)).1, ?_⟩
      have := (tableGet_iff ht.distinct b.1 b.2).2 hb
      rw [hform, hl] at this
      exact hdof _ _ _ _ (.inr this)
    · obtain ⟨b, hb, rfl⟩ := List.mem_map.1 hw
      have ht := (hok' s.1 (if s.2 then 1 else 0)).1
      refine ⟨(ht.fields b.1 (List.mem_map.2 ⟨b, hb, rfl⟩)).1, ?_⟩
      have := (tableGet_iff ht.distinct b.1 b.2).2 hb
      rw [hform, hv] at this
      exact hdof _ _ _ _ (.inl this)
  obtain ⟨s', e, hrows⟩ := rows_spec hnen (K, F) _ hr
  refine ⟨s'.1, s'.2, by rw [hcode, e], ?_⟩
  intro f hf
  obtain ⟨hK, hF⟩ := hrows f hf
  -- the deciding condition
  have hdec : (((sides c.dirs.length).filter (atEnd c.dirs)).flatMap fun s => sideRows c nrm shape s).foldl (ovw f) none =
      (pointCondition (specDirs c.dirs) (fun a s k => inForce a s k (valueEvents ops))
          (fun a s k => inForce a s k (loadEvents ops)) f).map fun q => ((if q.2.1 then shape else nrm q.1.1 q.1.2), q.2.2) := by
    rw [foldl_flatMap', foldl_congr_mem (g := fun o s => (((tableGet (c.form.value s.1 (if s.2 then 1 else 0)) f).map fun v => (shape, v)).or
       ((tableGet (c.form.load s.1 (if s.2 then 1 else 0)) f).map fun v => (nrm s.1 s.2, v))).or o) _ _
       (fun o s _ => sideRows_get c hok' nrm shape s f o), foldl_or, Option.or_none, ← List.filter_reverse, findSome_filter]
    unfold pointCondition
    have hlen : (specDirs c.dirs).length = c.dirs.length := by simp [specDirs]
    rw [hlen, ← findSome_map]
    apply findSome_congr
    intro q hq
    have hlt := mem_sides.1 (List.mem_reverse.1 hq)
    rw [hform]
    simp only [hv, hl]
    obtain ⟨i, b⟩ := q
    dsimp only at hlt ⊢
    have hd := List.getElem?_eq_getElem hlt
    unfold atEnd PointOnSide specDirs
    rw [List.getElem?_map, hd]
    simp only [Option.map_some]
    by_cases hp : c.dirs[i].periodic = true
    · have h1 := (hper i _ hd hp (if b then 1 else 0) f).1
      have h2 := (hper i _ hd hp (if b then 1 else 0) f).2
      rw [h1, h2]
      simp
    · have hp' : c.dirs[i].periodic = false := by simpa using hp
      rw [hp']
      simp only [Bool.not_false, Bool.true_and]
      split_ifs
      · cases inForce (↑i) 1 f (valueEvents ops) <;> cases inForce (↑i) 1 f (loadEvents ops) <;> rfl
      · rfl
      · cases inForce (↑i) 0 f (valueEvents ops) <;> cases inForce (↑i) 0 f (loadEvents ops) <;> rfl
      · rfl
  rw [hdec] at hK hF
  cases hpc : pointCondition (specDirs c.dirs) (fun a s k => inForce a s k (valueEvents ops))
      (fun a s k => inForce a s k (loadEvents ops)) f with
  | none =>
    rw [hpc] at hK hF
    exact ⟨hF, fun a ha g hg => hK a ha g hg⟩
  | some q =>
    rw [hpc] at hK hF
    obtain ⟨s, isv, v⟩ := q
    refine ⟨hF, fun a ha g hg => ?_⟩
    have := hK a ha g hg
    simp only [Option.map_some] at this
    rw [this]
    cases isv <;> rfl

/-! ### What does not hold -/

/-- A point of a grid with one periodic direction, a value on its left side. -/
def exPer : Ctx Int := ⟨[⟨3, 0, 0, 8, true⟩], 1, run create [.setValue 0 0 0 7], none, fun a => a, fun _ _ => 1⟩

/-- **C37** fails: a value set on the left side of a periodic direction constrains node 0 with collocation, both in the
list of constrained degrees of freedom and in the linear system.  Without collocation it is ignored. -/
theorem C37_periodic_refuted :
    buildColloc exPer = .ok ⟨[(0, 7)], []⟩ ∧ build exPer = .ok ⟨[], []⟩ ∧
    ∃ K' F', fixSystemColloc exPer (fun _ _ _ => 0) (fun a => a + 10) (fun _ => 1) (fun _ => 2) = .ok (K', F') ∧
      F' 0 = 7 ∧ K' 0 = 10 ∧ K' 1 = 11 := by
  refine ⟨by decide +kernel, by decide +kernel, ?_⟩
  obtain ⟨s, e, hs⟩ := rows_spec (nen := 3) (dof := 1) (by omega) ((fun _ => 1 : Int → Int), (fun _ => 2 : Int → Int))
    [((0:Int), (fun (a:Int) => a + 10), (7:Int))] (by intro w hw; simp at hw; subst hw; simp)
  have h0 := hs 0 (by simp)
  refine ⟨s.1, s.2, ?_, h0.2, ?_, ?_⟩
  · exact e
  · have := h0.1 0 (by omega) 0 (by simp); simpa [ovw] using this
  · have := h0.1 1 (by omega) 0 (by simp); simpa [ovw] using this

/-- A point of a one-dimensional grid with one field and a condition on field 3: the form accepts it before or after
the number of fields is set to 1. -/
def exField : Ctx Int := ⟨[⟨3, 0, 0, 8, false⟩], 1, run create [.setValue 0 0 3 7], none, fun a => a, fun _ _ => 1⟩

/-- **C37** fails: a condition on a field `≥ dof`, ignored without collocation, makes collocation write outside the
element matrix. -/
theorem C37_field_refuted :
    build exField = .ok ⟨[], []⟩ ∧ ∀ nrm shape K F, fixSystemColloc exField nrm shape K F = .ub := by
  refine ⟨by decide +kernel, fun nrm shape K F => rfl⟩

/-- A point of a one-dimensional grid with a value and a fix table. -/
def exTable : Ctx Int := ⟨[⟨3, 0, 0, 8, false⟩], 1, run create [.setValue 0 0 0 7], some fun _ => 42, fun a => a, fun _ _ => 1⟩

/-- The fix table replaces the value in the list of constrained degrees of freedom, but linear systems
with collocation use the value set. -/
theorem C37_table_ignored_refuted :
    buildColloc exTable = .ok ⟨[(0, 42)], []⟩ ∧
    ∃ K' F', fixSystemColloc exTable (fun _ _ _ => 0) (fun _ => 1) (fun _ => 1) (fun _ => 2) = .ok (K', F') ∧ F' 0 = 7 := by
  refine ⟨by decide +kernel, ?_⟩
  obtain ⟨s, e, hs⟩ := rows_spec (nen := 3) (dof := 1) (by omega) ((fun _ => 1 : Int → Int), (fun _ => 2 : Int → Int))
    [((0:Int), (fun (_:Int) => 1), (7:Int))] (by intro w hw; simp at hw; subst hw; simp)
  exact ⟨s.1, s.2, e, (hs 0 (by simp)).2⟩

/-- The hypotheses of the partial theorems hold in a case with two fields and three conditions. -/
example : ∃ (c : Ctx Int) (ops : List (Op Int)), c.form = run create ops ∧ (∀ d ∈ c.dirs, d.size ≠ 1 ∧ 1 ≤ d.nen ∧ d.periodic = false) ∧
    (∀ (i s f : Int) (v : Int), inForce i s f (valueEvents ops) = some v ∨ inForce i s f (loadEvents ops) = some v → f < c.dof) := by
  refine ⟨⟨[⟨3, 0, 0, 8, false⟩, ⟨2, 4, 7, 8, false⟩], 2, run create [.setValue 0 0 0 7, .setLoad 1 1 1 3], none, fun a => a, fun _ _ => 1⟩,
    [.setValue 0 0 0 7, .setLoad 1 1 1 3], rfl, by decide, ?_⟩
  intro i s f v h
  simp only [valueEvents, loadEvents, Op.legal, List.filterMap] at h
  simp [inForce] at h
  show f < 2
  rcases h with h | h <;> omega

end PetIGA.Fix
