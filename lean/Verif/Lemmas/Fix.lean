import Verif.Model.Fix
import Verif.Spec.Fix
import Verif.Lemmas.Grid
import Verif.Props.Form
/-! Lemmas about the lists of constrained degrees of freedom. -/
set_option linter.unusedSectionVars false
namespace PetIGA.Fix
open PetIGA.Form PetIGA.Grid PetIGA.Spec

variable {V : Type}

/-- A legal fix or flux list: distinct keys, all below `n`. -/
structure Good (n : Nat) (l : List (Int × V)) : Prop where
  distinct : (l.map Prod.fst).Nodup
  range : ∀ k ∈ l.map Prod.fst, 0 ≤ k ∧ k < n

theorem Good.size {n : Nat} {l : List (Int × V)} (h : Good n l) : l.length ≤ n := by
  have hs : l.map Prod.fst ⊆ (List.range n).map (fun (k : Nat) => (k : Int)) := by
    intro c hc
    have := h.range c hc
    rw [List.mem_map]
    exact ⟨c.toNat, by rw [List.mem_range]; omega, by omega⟩
  have := (List.subperm_of_subset h.distinct hs).length_le
  simpa using this

theorem Good.room {n : Nat} {l : List (Int × V)} (h : Good n l) {k : Int} (hk : 0 ≤ k ∧ k < n) (v : V) :
    l.length < n ∨ k ∈ l.map Prod.fst := by
  by_cases hm : k ∈ l.map Prod.fst
  · exact .inr hm
  · left
    have : Good n ((k, v) :: l) := ⟨by simpa using ⟨by simpa using hm, h.distinct⟩, by
      intro c hc
      simp only [List.map_cons, List.mem_cons] at hc
      rcases hc with rfl | hc
      · exact hk
      · exact h.range c hc⟩
    have := this.size
    simp at this
    omega

theorem put_good {n : Nat} {l : List (Int × V)} (h : Good n l) {k : Int} (hk : 0 ≤ k ∧ k < n) (v : V) :
    ∃ l', put n l k v = .ok l' ∧ Good n l' ∧ (∀ i, i ∈ l'.map Prod.fst ↔ i = k ∨ i ∈ l.map Prod.fst) ∧
      ∀ i, tableGet l' i = if i = k then some v else tableGet l i := by
  obtain ⟨l', e, a, b, c, -⟩ := put_spec k v (h.room hk v) h.distinct
  refine ⟨l', e, ⟨a, ?_⟩, b, c⟩
  intro i hi
  rcases (b i).1 hi with rfl | hi
  · exact hk
  · exact h.range i hi

theorem accum_spec [Zero V] [Add V] {n : Nat} {l : List (Int × V)} (i : Int) (w : V)
    (hl : l.length < n ∨ i ∈ l.map Prod.fst) (hn : (l.map Prod.fst).Nodup) :
    ∃ l', accum n l i w = .ok l' ∧ (l'.map Prod.fst).Nodup ∧ (∀ k, k ∈ l'.map Prod.fst ↔ k = i ∨ k ∈ l.map Prod.fst) ∧
      (∀ k, tableGet l' k = if k = i then some ((tableGet l k).getD 0 + w) else tableGet l k) := by
  induction l generalizing n with
  | nil =>
    have : 0 < n := by simpa using hl
    refine ⟨[(i, 0 + w)], ?_, by simp, by simp, ?_⟩
    · unfold accum; simp [this]
    · intro k
      unfold tableGet
      by_cases h : k = i
      · subst h; simp
      · have : ¬ i = k := fun h' => h h'.symm
        simp [h, this]
  | cons p l ih =>
    obtain ⟨pk, pv⟩ := p
    simp only [List.map_cons, List.nodup_cons] at hn
    by_cases hp : pk = i
    · subst hp
      refine ⟨(pk, pv + w) :: l, ?_, ?_, ?_, ?_⟩
      · unfold accum; simp [List.findIdx_cons]
      · simpa using hn
      · intro k; simp
      · intro k
        unfold tableGet
        by_cases h : k = pk
        · subst h; simp
        · have : ¬ pk = k := fun h' => h h'.symm
          simp [h, this]
    · have hip : ¬ i = pk := fun h => hp h.symm
      obtain ⟨l', e, a, b, c⟩ := ih (n := n - 1) (by
        rcases hl with hl | hl
        · left; simp at hl; omega
        · right; simp only [List.map_cons, List.mem_cons] at hl; exact hl.resolve_left hip) hn.2
      refine ⟨(pk, pv) :: l', ?_, ?_, ?_, ?_⟩
      · unfold accum at e ⊢
        have hb : (pk == i) = false := by simpa using hp
        simp only [List.findIdx_cons, hb, cond_false, List.length_cons, Nat.add_right_cancel_iff,
          List.getElem?_cons_succ] at e ⊢
        by_cases h1 : l.findIdx (fun p => p.1 == i) = l.length
        · rw [if_pos h1] at e ⊢
          by_cases h2 : l.findIdx (fun p => p.1 == i) < n - 1
          · rw [if_pos h2] at e
            rw [if_pos (by omega)]
            simp only [Res.ok.injEq] at e
            rw [← e]; rfl
          · rw [if_neg h2] at e; simp at e
        · rw [if_neg h1] at e ⊢
          cases hg : l[l.findIdx (fun p => p.1 == i)]? with
          | none => rw [hg] at e; simp at e
          | some q =>
            rw [hg] at e
            dsimp only at e ⊢
            simp only [Res.ok.injEq] at e
            rw [← e]; rfl
      · simp only [List.map_cons, List.nodup_cons]
        refine ⟨fun h => ?_, a⟩
        rcases (b pk).1 h with h | h
        · exact hp h
        · exact hn.1 h
      · intro k
        simp only [List.map_cons, List.mem_cons, b k]
        tauto
      · intro k
        have ck := c k
        unfold tableGet at ck ⊢
        by_cases h : k = pk
        · subst h
          simp [hp]
        · have : (pk == k) = false := by simpa using fun h' => h h'.symm
          simp only [List.find?_cons, this]
          exact ck

theorem accum_good [Zero V] [Add V] {n : Nat} {l : List (Int × V)} (h : Good n l) {k : Int} (hk : 0 ≤ k ∧ k < n) (w : V) :
    ∃ l', accum n l k w = .ok l' ∧ Good n l' ∧ (∀ i, i ∈ l'.map Prod.fst ↔ i = k ∨ i ∈ l.map Prod.fst) ∧
      ∀ i, tableGet l' i = if i = k then some ((tableGet l i).getD 0 + w) else tableGet l i := by
  obtain ⟨l', e, a, b, c⟩ := accum_spec k w (h.room hk w) h.distinct
  refine ⟨l', e, ⟨a, ?_⟩, b, c⟩
  intro i hi
  rcases (b i).1 hi with rfl | hi
  · exact hk
  · exact h.range i hi

/-- Overwrite. -/
def ovw (k : Int) (o : Option V) (p : Int × V) : Option V := if k = p.1 then some p.2 else o
/-- Accumulate. -/
def acc [Zero V] [Add V] (k : Int) (o : Option V) (p : Int × V) : Option V := if k = p.1 then some (o.getD 0 + p.2) else o

/-- The state `l` results from the writes `ws` to `l₀` (overwriting). -/
structure FixStep (n : Nat) (l₀ : List (Int × V)) (ws : List (Int × V)) (l : List (Int × V)) : Prop where
  good : Good n l
  keys : ∀ i, i ∈ l.map Prod.fst ↔ i ∈ l₀.map Prod.fst ∨ i ∈ ws.map Prod.fst
  get : ∀ i, tableGet l i = ws.foldl (ovw i) (tableGet l₀ i)

/-- The state `l` results from the writes `ws` to `l₀` (accumulating). -/
structure FluxStep [Zero V] [Add V] (n : Nat) (l₀ : List (Int × V)) (ws : List (Int × V)) (l : List (Int × V)) : Prop where
  good : Good n l
  keys : ∀ i, i ∈ l.map Prod.fst ↔ i ∈ l₀.map Prod.fst ∨ i ∈ ws.map Prod.fst
  get : ∀ i, tableGet l i = ws.foldl (acc i) (tableGet l₀ i)

theorem FixStep.trans {n : Nat} {l₀ ws l ws' l' : List (Int × V)} (h : FixStep n l₀ ws l) (h' : FixStep n l ws' l') :
    FixStep n l₀ (ws ++ ws') l' :=
  ⟨h'.good, fun i => by rw [h'.keys, h.keys, List.map_append, List.mem_append]; tauto,
   fun i => by rw [h'.get, h.get, List.foldl_append]⟩

theorem FluxStep.trans [Zero V] [Add V] {n : Nat} {l₀ ws l ws' l' : List (Int × V)} (h : FluxStep n l₀ ws l)
    (h' : FluxStep n l ws' l') : FluxStep n l₀ (ws ++ ws') l' :=
  ⟨h'.good, fun i => by rw [h'.keys, h.keys, List.map_append, List.mem_append]; tauto,
   fun i => by rw [h'.get, h.get, List.foldl_append]⟩

theorem FixStep.refl {n : Nat} {l : List (Int × V)} (h : Good n l) : FixStep n l [] l := ⟨h, by simp, fun _ => rfl⟩
theorem FluxStep.refl [Zero V] [Add V] {n : Nat} {l : List (Int × V)} (h : Good n l) : FluxStep n l [] l :=
  ⟨h, by simp, fun _ => rfl⟩

/-- The value `AddFixa` stores. -/
def fval (c : Ctx V) (a f : Int) (v : V) : V := match c.table with
  | some U => U (f + c.mapping a * c.dof)
  | none => v

/-- The writes of `AddFixa`. -/
def fixWrites (c : Ctx V) (a : Int) (bc : BC V) : List (Int × V) :=
  (bc.filter fun p => decide (p.1 < (c.dof : Int))).map fun p => (a * c.dof + p.1, fval c a p.1 p.2)

/-- The writes of `AddFlux`. -/
def fluxWrites [Mul V] (c : Ctx V) (a : Int) (A : V) (bc : BC V) : List (Int × V) :=
  (bc.filter fun p => decide (p.1 < (c.dof : Int))).map fun p => (a * c.dof + p.1, p.2 * A)

theorem key_range {nen dof : Nat} {a f : Int} (ha : 0 ≤ a ∧ a < nen) (hf : 0 ≤ f ∧ f < dof) :
    0 ≤ a * dof + f ∧ a * dof + f < (nen * dof : Nat) := by
  push_cast
  constructor
  · have := Int.mul_nonneg ha.1 (Int.natCast_nonneg dof); omega
  · have h : (a + 1) * dof ≤ nen * dof := Int.mul_le_mul_of_nonneg_right (by omega) (by omega)
    have : (a + 1) * dof = a * dof + dof := by ring
    omega

theorem addFixa_spec (c : Ctx V) {a : Int} (ha : 0 ≤ a ∧ a < c.nen) :
    ∀ (bc : BC V) (l : List (Int × V)), (∀ p ∈ bc, 0 ≤ p.1) → Good c.bufsize l →
    ∃ l', addFixa c a bc l = .ok l' ∧ FixStep c.bufsize l (fixWrites c a bc) l' := by
  intro bc
  induction bc with
  | nil => intro l _ hl; exact ⟨l, rfl, FixStep.refl hl⟩
  | cons p bc ih =>
    obtain ⟨f, v⟩ := p
    intro l hbc hl
    have h0 : 0 ≤ f := hbc (f, v) (by simp)
    have hr : ∀ p ∈ bc, 0 ≤ p.1 := fun p hp => hbc p (by simp [hp])
    unfold addFixa
    by_cases h : f ≥ c.dof
    · rw [if_pos h]
      obtain ⟨l', e, hs⟩ := ih l hr hl
      refine ⟨l', e, ?_⟩
      have : fixWrites c a ((f, v) :: bc) = fixWrites c a bc := by
        unfold fixWrites
        rw [List.filter_cons_of_neg (by simp; omega)]
      rw [this]; exact hs
    · rw [if_neg h]
      obtain ⟨l1, e1, g1, k1, t1⟩ := put_good hl (key_range ha ⟨h0, by omega⟩) (fval c a f v)
      obtain ⟨l', e, hs⟩ := ih l1 hr g1
      refine ⟨l', ?_, ?_⟩
      · show (put c.bufsize l (a * c.dof + f) (fval c a f v) >>= fun l => addFixa c a bc l) = _
        rw [e1, Res.ok_bind, e]
      · have : fixWrites c a ((f, v) :: bc) = [(a * c.dof + f, fval c a f v)] ++ fixWrites c a bc := by
          unfold fixWrites
          rw [List.filter_cons_of_pos (by simp; omega)]; rfl
        rw [this]
        refine FixStep.trans ⟨g1, ?_, ?_⟩ hs
        · intro i; rw [k1]; simp; tauto
        · intro i; rw [t1]; rfl

theorem addFlux_spec [Zero V] [Add V] [Mul V] (c : Ctx V) {a : Int} (ha : 0 ≤ a ∧ a < c.nen) (A : V) :
    ∀ (bc : BC V) (l : List (Int × V)), (∀ p ∈ bc, 0 ≤ p.1) → Good c.bufsize l →
    ∃ l', addFlux c a A bc l = .ok l' ∧ FluxStep c.bufsize l (fluxWrites c a A bc) l' := by
  intro bc
  induction bc with
  | nil => intro l _ hl; exact ⟨l, rfl, FluxStep.refl hl⟩
  | cons p bc ih =>
    obtain ⟨f, v⟩ := p
    intro l hbc hl
    have h0 : 0 ≤ f := hbc (f, v) (by simp)
    have hr : ∀ p ∈ bc, 0 ≤ p.1 := fun p hp => hbc p (by simp [hp])
    unfold addFlux
    by_cases h : f ≥ c.dof
    · rw [if_pos h]
      obtain ⟨l', e, hs⟩ := ih l hr hl
      refine ⟨l', e, ?_⟩
      have : fluxWrites c a A ((f, v) :: bc) = fluxWrites c a A bc := by
        unfold fluxWrites
        rw [List.filter_cons_of_neg (by simp; omega)]
      rw [this]; exact hs
    · rw [if_neg h]
      obtain ⟨l1, e1, g1, k1, t1⟩ := accum_good hl (key_range ha ⟨h0, by omega⟩) (v * A)
      obtain ⟨l', e, hs⟩ := ih l1 hr g1
      refine ⟨l', ?_, ?_⟩
      · rw [e1, Res.ok_bind, e]
      · have : fluxWrites c a A ((f, v) :: bc) = [(a * c.dof + f, v * A)] ++ fluxWrites c a A bc := by
          unfold fluxWrites
          rw [List.filter_cons_of_pos (by simp; omega)]; rfl
        rw [this]
        refine FluxStep.trans ⟨g1, ?_, ?_⟩ hs
        · intro i; rw [k1]; simp; tauto
        · intro i; rw [t1]; rfl

/-! ### The faces -/

/-- `nen` per direction. -/
def nens (ds : List EDir) : List Int := ds.map fun d => (d.nen : Int)

theorem nen_prod (ds : List EDir) : (((ds.map EDir.nen).foldl (· * ·) 1 : Nat) : Int) = prod (nens ds) := by
  have : ∀ (ds : List EDir) (m : Nat), (((ds.map EDir.nen).foldl (· * ·) m : Nat) : Int) = m * prod (nens ds) := by
    intro ds
    induction ds with
    | nil => intro m; simp [nens, prod]
    | cons d ds ih => intro m; simp only [List.map_cons, List.foldl_cons, ih]; simp [nens, prod]; ring
  rw [this]; simp

theorem full_box (ds : List EDir) (x : List Int) :
    InBlock ((ds.map fun d => ((0 : Int), (d.nen : Int) - 0)).map Prod.fst)
      ((ds.map fun d => ((0 : Int), (d.nen : Int) - 0)).map Prod.snd) x ↔ InBox (nens ds) x := by
  induction ds generalizing x with
  | nil => constructor
           · intro h; cases h; exact .nil
           · intro h; cases h; exact .nil
  | cons d ds ih =>
    constructor
    · intro h; cases h with
      | cons h1 h2 => exact .cons (by dsimp only at h1 ⊢; omega) ((ih _).1 h2)
    · intro h; cases h with
      | cons h1 h2 => exact .cons (by dsimp only at h1 ⊢; omega) ((ih _).2 h2)

/-- The nodes visited by `BuildFix`: exactly those of the face. -/
theorem mem_face : ∀ (ds : List EDir) (dir : Nat) (side : Bool) (x : List Int), dir < ds.length → (∀ d ∈ ds, 1 ≤ d.nen) →
    (x ∈ box (faceBox ds dir side) ↔ InBox (nens ds) x ∧
      ∃ d xi, ds[dir]? = some d ∧ x[dir]? = some xi ∧ (if side then xi = d.nen - 1 else xi = 0)) := by
  intro ds
  induction ds with
  | nil => intro dir side x h; simp at h
  | cons d ds ih =>
    intro dir side x h hn
    have hd := hn d (by simp)
    rw [mem_box]
    cases dir with
    | zero =>
      simp only [faceBox, List.map_cons, List.getElem?_cons_zero, Option.some.injEq]
      constructor
      · intro hb
        cases hb with
        | cons h1 h2 =>
          refine ⟨.cons ?_ ((full_box _ _).1 h2), d, _, rfl, rfl, ?_⟩
          · dsimp only
            cases side <;> simp at h1 <;> omega
          · cases side <;> simp at h1 ⊢ <;> omega
      · rintro ⟨hb, d', xi, rfl, hx, hs⟩
        cases hb with
        | cons h1 h2 =>
          simp only [List.getElem?_cons_zero, Option.some.injEq] at hx
          subst hx
          refine .cons ?_ ((full_box _ _).2 h2)
          dsimp only at h1
          cases side <;> simp at hs ⊢ <;> omega
    | succ k =>
      have hk : k < ds.length := by simpa using h
      have hn' : ∀ d ∈ ds, 1 ≤ d.nen := fun d hd => hn d (by simp [hd])
      simp only [faceBox, List.map_cons, List.getElem?_cons_succ]
      constructor
      · intro hb
        cases hb with
        | cons h1 h2 =>
          obtain ⟨a, b⟩ := (ih k side _ hk hn').1 ((mem_box _ _).2 h2)
          exact ⟨.cons (by dsimp only at h1 ⊢; omega) a, b⟩
      · rintro ⟨hb, hx⟩
        cases hb with
        | cons h1 h2 =>
          refine .cons (by dsimp only at h1 ⊢; omega) ((mem_box _ _).1 ((ih k side _ hk hn').2 ⟨h2, ?_⟩))
          simpa using hx

/-! ### One side -/

theorem flatMap_empty {α β : Type} (l : List α) : l.flatMap (fun _ => ([] : List β)) = [] := by
  induction l with
  | nil => rfl
  | cons a l ih => rw [List.flatMap_cons, ih]; rfl

variable [Zero V] [One V] [Add V] [Mul V]

/-- All writes to the fix list by `BuildFix`. -/
def sideFix (c : Ctx V) (dir : Nat) (side : Bool) : List (Int × V) :=
  (box (faceBox c.dirs dir side)).flatMap fun x => fixWrites c (c.node x) (c.form.value dir (if side then 1 else 0))

/-- All writes to the flux list by `BuildFix`. -/
def sideFlux (c : Ctx V) (dir : Nat) (side : Bool) : List (Int × V) :=
  (box (faceBox c.dirs dir side)).flatMap fun x =>
    fluxWrites c (c.node x) (c.area dir (if side then 1 else 0)) (c.form.load dir (if side then 1 else 0))

theorem node_flat (c : Ctx V) (x : List Int) : c.node x = flat (nens c.dirs) x := by
  unfold Ctx.node; rw [natural_one]; rfl

theorem node_range (c : Ctx V) {x : List Int} (hx : InBox (nens c.dirs) x) : 0 ≤ c.node x ∧ c.node x < c.nen := by
  have := flat_range hx
  rw [node_flat]
  unfold Ctx.nen
  rw [nen_prod]
  exact this

theorem loopNodes (c : Ctx V) (bcv bcl : BC V) (A : V) (hv : ∀ p ∈ bcv, 0 ≤ p.1) (hl : ∀ p ∈ bcl, 0 ≤ p.1) :
    ∀ (xs : List (List Int)) (s : Fixes V), (∀ x ∈ xs, InBox (nens c.dirs) x) → Good c.bufsize s.fix → Good c.bufsize s.flux →
    ∃ s', forM' (fun x (s : Fixes V) => do
        let a := c.node x
        let fix ← addFixa c a bcv s.fix
        let flux ← addFlux c a A bcl s.flux
        Res.ok (⟨fix, flux⟩ : Fixes V)) xs s = .ok s' ∧
      FixStep c.bufsize s.fix (xs.flatMap fun x => fixWrites c (c.node x) bcv) s'.fix ∧
      FluxStep c.bufsize s.flux (xs.flatMap fun x => fluxWrites c (c.node x) A bcl) s'.flux := by
  intro xs
  induction xs with
  | nil => intro s _ h1 h2; exact ⟨s, rfl, FixStep.refl h1, FluxStep.refl h2⟩
  | cons x xs ih =>
    intro s hx h1 h2
    have hr := node_range c (hx x (by simp))
    obtain ⟨l1, e1, s1⟩ := addFixa_spec c hr bcv s.fix hv h1
    obtain ⟨l2, e2, s2⟩ := addFlux_spec c hr A bcl s.flux hl h2
    obtain ⟨s', e, t1, t2⟩ := ih ⟨l1, l2⟩ (fun y hy => hx y (by simp [hy])) s1.good s2.good
    refine ⟨s', ?_, ?_, ?_⟩
    · unfold forM'
      dsimp only
      rw [e1, Res.ok_bind, e2, Res.ok_bind, Res.ok_bind]
      exact e
    · rw [List.flatMap_cons]; exact s1.trans t1
    · rw [List.flatMap_cons]; exact s2.trans t2

theorem buildSide_spec (c : Ctx V) (hf : FormOK c.form) (hn : ∀ d ∈ c.dirs, 1 ≤ d.nen) {dir : Nat} (hd : dir < c.dirs.length)
    (side : Bool) (s : Fixes V) (h1 : Good c.bufsize s.fix) (h2 : Good c.bufsize s.flux) :
    ∃ s', buildSide c dir side s = .ok s' ∧ FixStep c.bufsize s.fix (sideFix c dir side) s'.fix ∧
      FluxStep c.bufsize s.flux (sideFlux c dir side) s'.flux := by
  have hv : ∀ p ∈ c.form.value dir (if side then 1 else 0), 0 ≤ p.1 := fun p hp =>
    ((hf _ _).1.fields p.1 (List.mem_map.2 ⟨p, hp, rfl⟩)).1
  have hl : ∀ p ∈ c.form.load dir (if side then 1 else 0), 0 ≤ p.1 := fun p hp =>
    ((hf _ _).2.fields p.1 (List.mem_map.2 ⟨p, hp, rfl⟩)).1
  unfold buildSide
  dsimp only
  by_cases hc : (c.form.value dir (if side then 1 else 0)).length ≠ 0 ∨ (c.form.load dir (if side then 1 else 0)).length ≠ 0
  · rw [if_pos hc]
    obtain ⟨s', e, a, b⟩ := loopNodes c (c.form.value dir (if side then 1 else 0)) (c.form.load dir (if side then 1 else 0))
      (if (c.form.load dir (if side then 1 else 0)).length ≠ 0 then c.area dir (if side then 1 else 0) else 1) hv hl
      (box (faceBox c.dirs dir side)) s (fun x hx => ((mem_face _ _ _ _ hd hn).1 hx).1) h1 h2
    refine ⟨s', e, a, ?_⟩
    unfold sideFlux
    by_cases h0 : (c.form.load dir (if side then 1 else 0)).length ≠ 0
    · rw [if_pos h0] at b; exact b
    · rw [if_neg h0] at b
      have : c.form.load dir (if side then 1 else 0) = [] := List.eq_nil_of_length_eq_zero (by omega)
      rw [this] at b ⊢
      exact b
  · rw [if_neg hc]
    push Not at hc
    have ev := List.eq_nil_of_length_eq_zero hc.1
    have el := List.eq_nil_of_length_eq_zero hc.2
    refine ⟨s, rfl, ?_, ?_⟩
    · unfold sideFix; rw [ev]
      have : (fun x => fixWrites c (c.node x) ([] : BC V)) = fun _ => [] := rfl
      rw [this, flatMap_empty]
      exact FixStep.refl h1
    · unfold sideFlux; rw [el]
      have : (fun x => fluxWrites c (c.node x) (c.area dir (if side then 1 else 0)) ([] : BC V)) = fun _ => [] := rfl
      rw [this, flatMap_empty]
      exact FluxStep.refl h2

/-! ### All sides -/

/-- The sides `IGAElementBuildFix` processes, in order. -/
def active (ds : List (EDir × Nat)) : List (Nat × Bool) :=
  ds.flatMap fun p =>
    (if p.1.id = 0 ∧ ¬ p.1.periodic then [(p.2, false)] else []) ++
    (if p.1.id = p.1.size - 1 ∧ ¬ p.1.periodic then [(p.2, true)] else [])

theorem oneSide (c : Ctx V) (hf : FormOK c.form) (hn : ∀ d ∈ c.dirs, 1 ≤ d.nen) {dir : Nat} (hd : dir < c.dirs.length)
    (side : Bool) (b : Prop) [Decidable b] (s : Fixes V) (h1 : Good c.bufsize s.fix) (h2 : Good c.bufsize s.flux) :
    ∃ s', (if b then buildSide c dir side s else .ok s) = .ok s' ∧
      FixStep c.bufsize s.fix ((if b then [(dir, side)] else []).flatMap fun q => sideFix c q.1 q.2) s'.fix ∧
      FluxStep c.bufsize s.flux ((if b then [(dir, side)] else []).flatMap fun q => sideFlux c q.1 q.2) s'.flux := by
  by_cases h : b
  · simp only [if_pos h, List.flatMap_cons, List.flatMap_nil, List.append_nil]
    exact buildSide_spec c hf hn hd side s h1 h2
  · simp only [if_neg h, List.flatMap_nil]
    exact ⟨s, rfl, FixStep.refl h1, FluxStep.refl h2⟩

theorem build_loop (c : Ctx V) (hf : FormOK c.form) (hn : ∀ d ∈ c.dirs, 1 ≤ d.nen) :
    ∀ (ds : List (EDir × Nat)) (s : Fixes V), (∀ p ∈ ds, p.2 < c.dirs.length) → Good c.bufsize s.fix → Good c.bufsize s.flux →
    ∃ s', forM' (fun (p : EDir × Nat) (s : Fixes V) =>
        (if p.1.id = 0 ∧ ¬ p.1.periodic then buildSide c p.2 false s else .ok s) >>= fun s =>
        if p.1.id = p.1.size - 1 ∧ ¬ p.1.periodic then buildSide c p.2 true s else .ok s) ds s = .ok s' ∧
      FixStep c.bufsize s.fix ((active ds).flatMap fun q => sideFix c q.1 q.2) s'.fix ∧
      FluxStep c.bufsize s.flux ((active ds).flatMap fun q => sideFlux c q.1 q.2) s'.flux := by
  intro ds
  induction ds with
  | nil => intro s _ h1 h2; exact ⟨s, rfl, FixStep.refl h1, FluxStep.refl h2⟩
  | cons p ds ih =>
    intro s hp h1 h2
    have hd := hp p (by simp)
    obtain ⟨s1, e1, a1, b1⟩ := oneSide c hf hn hd false (p.1.id = 0 ∧ ¬ p.1.periodic) s h1 h2
    obtain ⟨s2, e2, a2, b2⟩ := oneSide c hf hn hd true (p.1.id = p.1.size - 1 ∧ ¬ p.1.periodic) s1 a1.good b1.good
    obtain ⟨s3, e3, a3, b3⟩ := ih s2 (fun q hq => hp q (by simp [hq])) a2.good b2.good
    refine ⟨s3, ?_, ?_, ?_⟩
    · unfold forM'
      rw [e1, Res.ok_bind, e2, Res.ok_bind]
      exact e3
    · have : active (p :: ds) = ((if p.1.id = 0 ∧ ¬ p.1.periodic then [(p.2, false)] else []) ++
        (if p.1.id = p.1.size - 1 ∧ ¬ p.1.periodic then [(p.2, true)] else [])) ++ active ds := rfl
      rw [this, List.flatMap_append, List.flatMap_append]
      exact (a1.trans a2).trans a3
    · have : active (p :: ds) = ((if p.1.id = 0 ∧ ¬ p.1.periodic then [(p.2, false)] else []) ++
        (if p.1.id = p.1.size - 1 ∧ ¬ p.1.periodic then [(p.2, true)] else [])) ++ active ds := rfl
      rw [this, List.flatMap_append, List.flatMap_append]
      exact (b1.trans b2).trans b3

theorem good_nil (n : Nat) : Good n ([] : List (Int × V)) := ⟨by simp, by simp⟩

theorem build_spec (c : Ctx V) (hf : FormOK c.form) (hn : ∀ d ∈ c.dirs, 1 ≤ d.nen) :
    ∃ s, build c = .ok s ∧
      FixStep c.bufsize [] ((active c.dirs.zipIdx).flatMap fun q => sideFix c q.1 q.2) s.fix ∧
      FluxStep c.bufsize [] ((active c.dirs.zipIdx).flatMap fun q => sideFlux c q.1 q.2) s.flux := by
  refine build_loop c hf hn c.dirs.zipIdx ⟨[], []⟩ ?_ (good_nil _) (good_nil _)
  intro p hp
  have := List.snd_lt_of_mem_zipIdx hp
  simpa using this

end PetIGA.Fix
