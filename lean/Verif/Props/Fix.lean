import Verif.Lemmas.Fix
import Mathlib.Algebra.Ring.Defs
import Mathlib.Algebra.BigOperators.Group.List.Basic
/-! Property theorems about the lists of constrained and loaded degrees of freedom of an element (C32, C33). -/
set_option linter.unusedSectionVars false
namespace PetIGA.Fix
open PetIGA.Form PetIGA.Grid PetIGA.Spec

variable {V : Type}

theorem tableGet_iff {l : List (Int × V)} (h : (l.map Prod.fst).Nodup) (k : Int) (v : V) :
    tableGet l k = some v ↔ (k, v) ∈ l := by
  induction l with
  | nil => simp [tableGet]
  | cons p l ih =>
    obtain ⟨pk, pv⟩ := p
    simp only [List.map_cons, List.nodup_cons] at h
    have ih := ih h.2
    unfold tableGet at ih ⊢
    by_cases hk : pk = k
    · subst hk
      have : ∀ w, (pk, w) ∉ l := fun w hw => h.1 (List.mem_map.2 ⟨_, hw, rfl⟩)
      simp [this, eq_comm]
    · have hb : (pk == k) = false := by simpa using hk
      have hk' : ¬ k = pk := fun h => hk h.symm
      simp only [List.find?_cons, hb, List.mem_cons, Prod.mk.injEq, hk', false_and, false_or]
      exact ih

theorem tableGet_none {l : List (Int × V)} {k : Int} : tableGet l k = none ↔ k ∉ l.map Prod.fst := by
  unfold tableGet
  rw [Option.map_eq_none_iff, List.find?_eq_none]
  constructor
  · intro h hm
    obtain ⟨p, hp, rfl⟩ := List.mem_map.1 hm
    exact h p hp (by simp)
  · intro h p hp he
    exact h (List.mem_map.2 ⟨p, hp, by simpa using he⟩)

theorem foldl_ovw {ws : List (Int × V)} (h : (ws.map Prod.fst).Nodup) (k : Int) (o : Option V) :
    ws.foldl (ovw k) o = (tableGet ws k).or o := by
  induction ws generalizing o with
  | nil => simp [tableGet]
  | cons p ws ih =>
    obtain ⟨pk, pv⟩ := p
    simp only [List.map_cons, List.nodup_cons] at h
    rw [List.foldl_cons, ih h.2]
    by_cases hk : k = pk
    · subst hk
      rw [tableGet_none.2 h.1]
      simp [ovw, tableGet]
    · have hb : (pk == k) = false := by simpa using fun h' => hk h'.symm
      simp [ovw, tableGet, hk, hb]

theorem foldl_acc [Zero V] [Add V] {ws : List (Int × V)} (h : (ws.map Prod.fst).Nodup) (k : Int) (o : Option V) :
    ws.foldl (acc k) o = match tableGet ws k with | some w => some (o.getD 0 + w) | none => o := by
  induction ws generalizing o with
  | nil => simp [tableGet]
  | cons p ws ih =>
    obtain ⟨pk, pv⟩ := p
    simp only [List.map_cons, List.nodup_cons] at h
    rw [List.foldl_cons, ih h.2]
    by_cases hk : k = pk
    · subst hk
      rw [tableGet_none.2 h.1]
      simp [acc, tableGet]
    · have hb : (pk == k) = false := by simpa using fun h' => hk h'.symm
      simp [acc, tableGet, hk, hb]

/-- Keys `a*dof+f` determine the node and the field. -/
theorem key_inj {dof : Nat} {a f a' f' : Int} (hf : 0 ≤ f ∧ f < dof) (hf' : 0 ≤ f' ∧ f' < dof)
    (h : a * dof + f = a' * dof + f') : a = a' ∧ f = f' := by
  have hp : (0:Int) < dof := by omega
  have h1 : (a * dof + f) / dof = a := by
    rw [Int.add_comm, Int.add_mul_ediv_right _ _ (by omega), Int.ediv_eq_zero_of_lt hf.1 hf.2, Int.zero_add]
  have h2 : (a' * dof + f') / dof = a' := by
    rw [Int.add_comm, Int.add_mul_ediv_right _ _ (by omega), Int.ediv_eq_zero_of_lt hf'.1 hf'.2, Int.zero_add]
  have : a = a' := by rw [← h1, ← h2, h]
  subst this
  exact ⟨rfl, by omega⟩

/-- The writes of all nodes of `xs` for one table. -/
def writes (c : Ctx V) (g : Int → Int → V → V) (bc : BC V) (xs : List (List Int)) : List (Int × V) :=
  xs.flatMap fun x => (bc.filter fun p => decide (p.1 < (c.dof : Int))).map fun p =>
    (c.node x * c.dof + p.1, g (c.node x) p.1 p.2)

theorem mem_writes {c : Ctx V} {g : Int → Int → V → V} {bc : BC V} {xs : List (List Int)} {k : Int} {w : V} :
    (k, w) ∈ writes c g bc xs ↔ ∃ x ∈ xs, ∃ f v, (f, v) ∈ bc ∧ f < c.dof ∧ k = c.node x * c.dof + f ∧ w = g (c.node x) f v := by
  unfold writes
  simp only [List.mem_flatMap, List.mem_map, List.mem_filter, decide_eq_true_eq, Prod.mk.injEq, Prod.exists]
  constructor
  · rintro ⟨x, hx, f, v, ⟨h1, h2⟩, h3, h4⟩; exact ⟨x, hx, f, v, h1, h2, h3.symm, h4.symm⟩
  · rintro ⟨x, hx, f, v, h1, h2, h3, h4⟩; exact ⟨x, hx, f, v, ⟨h1, h2⟩, h3.symm, h4.symm⟩

theorem writes_nodup [Zero V] [One V] [Add V] [Mul V] {c : Ctx V} {g : Int → Int → V → V} {bc : BC V} (hbc : TableOK bc)
    {xs : List (List Int)} (hx : ∀ x ∈ xs, InBox (nens c.dirs) x) (hn : xs.Nodup) :
    ((writes c g bc xs).map Prod.fst).Nodup := by
  unfold writes
  rw [List.map_flatMap]
  rw [List.nodup_flatMap]
  have hk : (bc.filter fun p => decide (p.1 < (c.dof : Int))).Pairwise fun p q => p.1 ≠ q.1 := by
    have := hbc.distinct
    rw [List.nodup_iff_pairwise_ne, List.pairwise_map] at this
    exact this.filter _
  constructor
  · intro x _
    rw [List.map_map, List.nodup_iff_pairwise_ne, List.pairwise_map]
    refine hk.imp ?_
    intro p q hpq h
    apply hpq
    simpa using h
  · rw [List.nodup_iff_pairwise_ne] at hn
    refine hn.imp_of_mem ?_
    intro x y hxm hym hxy
    show List.Disjoint _ _
    intro k h1 h2
    simp only [List.mem_map, List.mem_filter, decide_eq_true_eq] at h1 h2
    obtain ⟨p, ⟨p', ⟨hp1, hp2⟩, rfl⟩, rfl⟩ := h1
    obtain ⟨q, ⟨q', ⟨hq1, hq2⟩, rfl⟩, hkey⟩ := h2
    dsimp only at hkey
    have hpf := (hbc.fields p'.1 (List.mem_map.2 ⟨p', hp1, rfl⟩)).1
    have hqf := (hbc.fields q'.1 (List.mem_map.2 ⟨q', hq1, rfl⟩)).1
    have := (key_inj ⟨hqf, hq2⟩ ⟨hpf, hp2⟩ hkey).1
    rw [node_flat, node_flat] at this
    exact hxy (flat_inj (hx y hym) (hx x hxm) this).symm

/-- What a table contributes at one degree of freedom. -/
theorem writes_get [Zero V] [One V] [Add V] [Mul V] {c : Ctx V} {g : Int → Int → V → V} {bc : BC V} (hbc : TableOK bc)
    {xs : List (List Int)} (hx : ∀ x ∈ xs, InBox (nens c.dirs) x) (hn : xs.Nodup) {x : List Int} (hxb : InBox (nens c.dirs) x)
    {f : Int} (hf : 0 ≤ f ∧ f < c.dof) [Decidable (x ∈ xs)] :
    tableGet (writes c g bc xs) (flat (nens c.dirs) x * c.dof + f) =
      if x ∈ xs then (tableGet bc f).map (g (flat (nens c.dirs) x) f) else none := by
  have hw := writes_nodup (g := g) hbc hx hn
  have hsub : ∀ w, tableGet (writes c g bc xs) (flat (nens c.dirs) x * c.dof + f) = some w ↔
      x ∈ xs ∧ ∃ v, tableGet bc f = some v ∧ w = g (flat (nens c.dirs) x) f v := by
    intro w
    rw [tableGet_iff hw, mem_writes]
    constructor
    · rintro ⟨y, hy, f', v, h1, h2, h3, h4⟩
      have h0 := (hbc.fields f' (List.mem_map.2 ⟨_, h1, rfl⟩)).1
      obtain ⟨ha, hfe⟩ := key_inj hf ⟨h0, h2⟩ h3
      rw [node_flat] at ha
      have hxy := flat_inj hxb (hx y hy) ha
      subst hxy; subst hfe
      refine ⟨hy, v, (tableGet_iff hbc.distinct _ _).2 h1, ?_⟩
      rw [h4, node_flat]
    · rintro ⟨hxs, v, h1, h2⟩
      exact ⟨x, hxs, f, v, (tableGet_iff hbc.distinct _ _).1 h1, hf.2, by rw [node_flat], by rw [node_flat]; exact h2⟩
  by_cases h : x ∈ xs
  · rw [if_pos h]
    cases hg : tableGet bc f with
    | some v => rw [Option.map_some, hsub]; exact ⟨h, v, hg, rfl⟩
    | none =>
      rw [Option.map_none, Option.eq_none_iff_forall_ne_some]
      intro w hw'
      obtain ⟨-, v, hv, -⟩ := (hsub w).1 hw'
      rw [hg] at hv; simp at hv
  · rw [if_neg h, Option.eq_none_iff_forall_ne_some]
    intro w hw'
    exact h ((hsub w).1 hw').1

/-! ### All sides -/

/-- The specification's view of the directions. -/
def specDirs (ds : List EDir) : List ElemDir := ds.map fun d => ⟨d.nen, d.id, d.size, d.periodic⟩

/-- The side is processed. -/
def act (ds : List EDir) (s : Nat × Bool) : Bool := match ds[s.1]? with
  | some d => !d.periodic && (if s.2 then decide (d.id = d.size - 1) else decide (d.id = 0))
  | none => false

theorem active_gen (full : List EDir) : ∀ (ds : List EDir) (k : Nat), (∀ j, full[k+j]? = ds[j]?) →
    active (ds.zipIdx k) = ((List.range' k ds.length).flatMap fun i => [(i, false), (i, true)]).filter (act full) := by
  intro ds
  induction ds with
  | nil => intro k _; rfl
  | cons d ds ih =>
    intro k h
    have hd : full[k]? = some d := by simpa using h 0
    have h1 := ih (k+1) (fun j => by
      have := h (j+1)
      rw [List.getElem?_cons_succ] at this
      rw [← this]; congr 1; omega)
    rw [List.zipIdx_cons, List.length_cons, List.range'_succ, List.flatMap_cons, List.filter_append, ← h1]
    have : active ((d, k) :: ds.zipIdx (k+1)) = ((if d.id = 0 ∧ ¬ d.periodic then [(k, false)] else []) ++
        (if d.id = d.size - 1 ∧ ¬ d.periodic then [(k, true)] else [])) ++ active (ds.zipIdx (k+1)) := rfl
    rw [this]
    congr 1
    have e1 : act full (k, false) = (!d.periodic && decide (d.id = 0)) := by unfold act; rw [hd]; simp
    have e2 : act full (k, true) = (!d.periodic && decide (d.id = d.size - 1)) := by unfold act; rw [hd]; simp
    rw [List.filter_cons, List.filter_cons, List.filter_nil, e1, e2]
    cases hp : d.periodic <;> by_cases q1 : d.id = 0 <;> by_cases q2 : d.id = d.size - 1 <;> simp [q1, q2] <;> simp_all

theorem active_eq (ds : List EDir) : active ds.zipIdx = (sides ds.length).filter (act ds) := by
  rw [active_gen ds ds 0 (by simp)]
  unfold sides
  rw [List.range_eq_range']

theorem mem_sides {n : Nat} {s : Nat × Bool} : s ∈ sides n ↔ s.1 < n := by
  unfold sides
  obtain ⟨i, b⟩ := s
  simp only [List.mem_flatMap, List.mem_range, List.mem_cons, Prod.mk.injEq, List.not_mem_nil, or_false]
  constructor
  · rintro ⟨j, hj, h | h⟩ <;> omega
  · intro h; exact ⟨i, h, by cases b <;> simp⟩

variable [Zero V] [One V] [Add V] [Mul V]

theorem onSide (c : Ctx V) (hn : ∀ d ∈ c.dirs, 1 ≤ d.nen) {x : List Int} (hx : InBox (nens c.dirs) x) (s : Nat × Bool)
    (hs : s ∈ sides c.dirs.length) :
    OnDomainSide (specDirs c.dirs) x s = true ↔ act c.dirs s = true ∧ x ∈ box (faceBox c.dirs s.1 s.2) := by
  have hlt := mem_sides.1 hs
  rw [mem_face _ _ _ _ hlt hn]
  have hlen : x.length = c.dirs.length := by
    have := List.Forall₂.length_eq hx
    simpa [nens] using this.symm
  obtain ⟨d, hd⟩ : ∃ d, c.dirs[s.1]? = some d := ⟨_, List.getElem?_eq_getElem hlt⟩
  obtain ⟨xi, hxi⟩ : ∃ xi, x[s.1]? = some xi := ⟨_, List.getElem?_eq_getElem (by omega)⟩
  have hsd : (specDirs c.dirs)[s.1]? = some ⟨d.nen, d.id, d.size, d.periodic⟩ := by
    unfold specDirs; rw [List.getElem?_map, hd]; rfl
  unfold OnDomainSide act
  rw [hsd, hd, hxi]
  dsimp only
  simp only [Option.some.injEq, exists_eq_left', hx, true_and]
  obtain ⟨i, b⟩ := s
  cases b <;> simp <;> tauto

theorem foldl_or {α β : Type} (g : α → Option β) : ∀ (l : List α) (o : Option β),
    l.foldl (fun o q => (g q).or o) o = (l.reverse.findSome? g).or o := by
  intro l
  induction l with
  | nil => intro o; simp
  | cons a l ih =>
    intro o
    rw [List.foldl_cons, ih, List.reverse_cons, List.findSome?_append]
    cases l.reverse.findSome? g <;> simp

theorem foldl_sum {α : Type} {W : Type} [Semiring W] (g : α → Option W) : ∀ (l : List α) (o : Option W),
    l.foldl (fun o q => match g q with | some w => some (o.getD 0 + w) | none => o) o =
      match l.filterMap g with
      | [] => o
      | w :: ws => some (o.getD 0 + (w :: ws).sum) := by
  intro l
  induction l with
  | nil => intro o; simp
  | cons a l ih =>
    intro o
    rw [List.foldl_cons, ih]
    cases hg : g a with
    | none => rw [List.filterMap_cons_none hg]
    | some w =>
      rw [List.filterMap_cons_some hg]
      cases l.filterMap g with
      | nil => simp
      | cons w' ws => simp [add_assoc]

theorem foldl_flatMap' {α β γ : Type} (f : γ → β → γ) (g : α → List β) : ∀ (l : List α) (o : γ),
    (l.flatMap g).foldl f o = l.foldl (fun o a => (g a).foldl f o) o := by
  intro l
  induction l with
  | nil => intro o; rfl
  | cons a l ih => intro o; rw [List.flatMap_cons, List.foldl_append, ih, List.foldl_cons]

theorem foldl_congr_mem {α γ : Type} {f g : γ → α → γ} : ∀ (l : List α) (o : γ), (∀ o, ∀ a ∈ l, f o a = g o a) →
    l.foldl f o = l.foldl g o := by
  intro l
  induction l with
  | nil => intro o _; rfl
  | cons a l ih =>
    intro o h
    rw [List.foldl_cons, List.foldl_cons, h o a (by simp)]
    exact ih _ (fun o b hb => h o b (by simp [hb]))

theorem findSome_filter {α β : Type} (p : α → Bool) (g : α → Option β) : ∀ (l : List α),
    (l.filter p).findSome? g = l.findSome? (fun a => if p a then g a else none) := by
  intro l
  induction l with
  | nil => rfl
  | cons a l ih =>
    rw [List.filter_cons]
    cases h : p a
    · simp [List.findSome?_cons, ih, h]
    · simp [List.findSome?_cons, ih, h]

theorem filterMap_filter' {α β : Type} (p : α → Bool) (g : α → Option β) : ∀ (l : List α),
    (l.filter p).filterMap g = l.filterMap (fun a => if p a then g a else none) := by
  intro l
  induction l with
  | nil => rfl
  | cons a l ih =>
    rw [List.filter_cons]
    cases h : p a
    · simp [List.filterMap_cons, ih, h]
    · simp [List.filterMap_cons, ih, h]

theorem findSome_congr {α β : Type} {f g : α → Option β} : ∀ (l : List α), (∀ a ∈ l, f a = g a) →
    l.findSome? f = l.findSome? g := by
  intro l
  induction l with
  | nil => intro _; rfl
  | cons a l ih =>
    intro h
    rw [List.findSome?_cons, List.findSome?_cons, h a (by simp), ih (fun b hb => h b (by simp [hb]))]

theorem findSome_map {α β γ : Type} (h : β → γ) (f : α → Option β) : ∀ (l : List α),
    l.findSome? (fun a => (f a).map h) = (l.findSome? f).map h := by
  intro l
  induction l with
  | nil => rfl
  | cons a l ih =>
    rw [List.findSome?_cons, List.findSome?_cons]
    cases f a <;> simp [ih]

/-- The fix list of an element in terms of its tables. -/
theorem fix_get (c : Ctx V) (hf : FormOK c.form) (hn : ∀ d ∈ c.dirs, 1 ≤ d.nen) {x : List Int}
    (hx : InBox (nens c.dirs) x) {f : Int} (hfr : 0 ≤ f ∧ f < c.dof) :
    ((active c.dirs.zipIdx).flatMap fun q => sideFix c q.1 q.2).foldl (ovw (flat (nens c.dirs) x * c.dof + f)) none =
      (prescribed (specDirs c.dirs) (fun a s k => tableGet (c.form.value a s) k) x f).map
        (fval c (flat (nens c.dirs) x) f) := by
  classical
  have hside : ∀ q ∈ sides c.dirs.length, act c.dirs q = true → ∀ o : Option V,
      (sideFix c q.1 q.2).foldl (ovw (flat (nens c.dirs) x * c.dof + f)) o =
      (if OnDomainSide (specDirs c.dirs) x q then
        (tableGet (c.form.value q.1 (if q.2 then 1 else 0)) f).map (fval c (flat (nens c.dirs) x) f) else none).or o := by
    intro q hq ha o
    have hm : ∀ y ∈ box (faceBox c.dirs q.1 q.2), InBox (nens c.dirs) y := fun y hy =>
      ((mem_face _ _ _ _ (mem_sides.1 hq) hn).1 hy).1
    have hw := writes_nodup (c := c) (g := fval c) (hf q.1 (if q.2 then 1 else 0)).1 hm (nodup_box _)
    have hg := writes_get (c := c) (g := fval c) (hf q.1 (if q.2 then 1 else 0)).1 hm (nodup_box _) hx hfr
    have e : sideFix c q.1 q.2 = writes c (fval c) (c.form.value q.1 (if q.2 then 1 else 0)) (box (faceBox c.dirs q.1 q.2)) := rfl
    rw [e, foldl_ovw hw, hg]
    congr 1
    have := onSide c hn hx q hq
    by_cases h : x ∈ box (faceBox c.dirs q.1 q.2)
    · rw [if_pos h, if_pos (this.2 ⟨ha, h⟩)]
    · rw [if_neg h, if_neg (fun hh => h (this.1 hh).2)]
  rw [foldl_flatMap', active_eq]
  rw [foldl_congr_mem (g := fun o q => (if OnDomainSide (specDirs c.dirs) x q then
      (tableGet (c.form.value q.1 (if q.2 then 1 else 0)) f).map (fval c (flat (nens c.dirs) x) f) else none).or o)]
  · rw [foldl_or, Option.or_none, ← List.filter_reverse, findSome_filter]
    unfold prescribed
    rw [← findSome_map]
    have hl : (specDirs c.dirs).length = c.dirs.length := by simp [specDirs]
    rw [hl]
    apply findSome_congr
    intro q hq
    have hq := List.mem_reverse.1 hq
    have := onSide c hn hx q hq
    cases ha : act c.dirs q
    · rw [if_neg (by simp)]
      have : ¬ OnDomainSide (specDirs c.dirs) x q = true := fun hh => by
        have := (this.1 hh).1; rw [ha] at this; simp at this
      rw [if_neg this]; rfl
    · rw [if_pos rfl]
      by_cases h : OnDomainSide (specDirs c.dirs) x q = true
      · rw [if_pos h, if_pos h]
      · rw [if_neg h, if_neg h]; rfl
  · intro o q hq
    rw [List.mem_filter] at hq
    exact hside q hq.1 hq.2 o

theorem flux_get {W : Type} [Semiring W] (c : Ctx W) (hf : FormOK c.form) (hn : ∀ d ∈ c.dirs, 1 ≤ d.nen) {x : List Int}
    (hx : InBox (nens c.dirs) x) {f : Int} (hfr : 0 ≤ f ∧ f < c.dof) :
    ((active c.dirs.zipIdx).flatMap fun q => sideFlux c q.1 q.2).foldl (acc (flat (nens c.dirs) x * c.dof + f)) none =
      match loads (specDirs c.dirs) (fun a s k => tableGet (c.form.load a s) k) c.area x f with
      | [] => none
      | w :: ws => some ((w :: ws).sum) := by
  classical
  have hside : ∀ q ∈ sides c.dirs.length, act c.dirs q = true → ∀ o : Option W,
      (sideFlux c q.1 q.2).foldl (acc (flat (nens c.dirs) x * c.dof + f)) o =
      match (if OnDomainSide (specDirs c.dirs) x q then
        (tableGet (c.form.load q.1 (if q.2 then 1 else 0)) f).map (· * c.area q.1 (if q.2 then 1 else 0)) else none) with
      | some w => some (o.getD 0 + w)
      | none => o := by
    intro q hq ha o
    have hm : ∀ y ∈ box (faceBox c.dirs q.1 q.2), InBox (nens c.dirs) y := fun y hy =>
      ((mem_face _ _ _ _ (mem_sides.1 hq) hn).1 hy).1
    have hw := writes_nodup (c := c) (g := fun _ _ v => v * c.area q.1 (if q.2 then 1 else 0))
      (hf q.1 (if q.2 then 1 else 0)).2 hm (nodup_box _)
    have hg := writes_get (c := c) (g := fun _ _ v => v * c.area q.1 (if q.2 then 1 else 0))
      (hf q.1 (if q.2 then 1 else 0)).2 hm (nodup_box _) hx hfr
    have e : sideFlux c q.1 q.2 = writes c (fun _ _ v => v * c.area q.1 (if q.2 then 1 else 0))
      (c.form.load q.1 (if q.2 then 1 else 0)) (box (faceBox c.dirs q.1 q.2)) := rfl
    rw [e, foldl_acc hw, hg]
    have := onSide c hn hx q hq
    by_cases h : x ∈ box (faceBox c.dirs q.1 q.2)
    · rw [if_pos h, if_pos (this.2 ⟨ha, h⟩)]
    · rw [if_neg h, if_neg (fun hh => h (this.1 hh).2)]
  rw [foldl_flatMap', active_eq]
  rw [foldl_congr_mem (g := fun o q => match (if OnDomainSide (specDirs c.dirs) x q then
        (tableGet (c.form.load q.1 (if q.2 then 1 else 0)) f).map (· * c.area q.1 (if q.2 then 1 else 0)) else none) with
      | some w => some (o.getD 0 + w)
      | none => o)]
  · rw [foldl_sum, filterMap_filter']
    unfold loads
    have hl : (specDirs c.dirs).length = c.dirs.length := by simp [specDirs]
    rw [hl]
    have : (sides c.dirs.length).filterMap (fun a => if act c.dirs a = true then
          (if OnDomainSide (specDirs c.dirs) x a then
            (tableGet (c.form.load a.1 (if a.2 then 1 else 0)) f).map (· * c.area a.1 (if a.2 then 1 else 0)) else none)
          else none) =
        (sides c.dirs.length).filterMap (fun s => if OnDomainSide (specDirs c.dirs) x s = true then
            (tableGet (c.form.load s.1 (if s.2 then 1 else 0)) f).map (· * c.area s.1 (if s.2 then 1 else 0)) else none) := by
      apply List.filterMap_congr
      intro q hq
      have := onSide c hn hx q hq
      cases ha : act c.dirs q
      · rw [if_neg (by simp)]
        have : ¬ OnDomainSide (specDirs c.dirs) x q = true := fun hh => by
          have := (this.1 hh).1; rw [ha] at this; simp at this
        rw [if_neg this]
      · rw [if_pos rfl]
    rw [this]
    simp only [Option.getD_none, zero_add]
  · intro o q hq
    rw [List.mem_filter] at hq
    exact hside q hq.1 hq.2 o

theorem fix_keys (c : Ctx V) (hf : FormOK c.form) (hn : ∀ d ∈ c.dirs, 1 ≤ d.nen) (g : Nat → Bool → Int → Int → V → V)
    (t : Nat → Bool → BC V) (ht : ∀ i b, TableOK (t i b)) {k : Int}
    (hk : k ∈ ((active c.dirs.zipIdx).flatMap fun q => writes c (g q.1 q.2) (t q.1 q.2) (box (faceBox c.dirs q.1 q.2))).map Prod.fst) :
    ∃ (x : List Int) (f : Int), InBox (nens c.dirs) x ∧ (0 ≤ f ∧ f < c.dof) ∧ k = flat (nens c.dirs) x * c.dof + f := by
  obtain ⟨⟨k', w⟩, hm, rfl⟩ := List.mem_map.1 hk
  obtain ⟨q, hq, hm⟩ := List.mem_flatMap.1 hm
  rw [active_eq, List.mem_filter] at hq
  obtain ⟨x, hx, f, v, h1, h2, h3, -⟩ := mem_writes.1 hm
  have h0 := ((ht q.1 q.2).fields f (List.mem_map.2 ⟨_, h1, rfl⟩)).1
  exact ⟨x, f, ((mem_face _ _ _ _ (mem_sides.1 hq.1) hn).1 hx).1, ⟨h0, h2⟩, by rw [← node_flat]; exact h3⟩

/-- **C32.**  For every element, position, grid and history `ops` of calls on the form, the list of constrained
degrees of freedom is built without leaving its buffer, contains no index twice, only indices `node*dof+field` with
`field < dof`, and for each degree of freedom its entry is what the sides the node lies on prescribe: the last side
wins, and the value is replaced by that of the fix table when there is one. -/
theorem C32_fix_list (c : Ctx V) (ops : List (Op V)) (hform : c.form = run create ops) (hn : ∀ d ∈ c.dirs, 1 ≤ d.nen) :
    ∃ s, build c = .ok s ∧ (s.fix.map Prod.fst).Nodup ∧ s.fix.length ≤ c.bufsize ∧
      (∀ k ∈ s.fix.map Prod.fst, ∃ (x : List Int) (f : Int), InBox (nens c.dirs) x ∧ (0 ≤ f ∧ f < c.dof) ∧
        k = flat (nens c.dirs) x * c.dof + f) ∧
      ∀ (x : List Int) (f : Int), InBox (nens c.dirs) x → (0 ≤ f ∧ f < c.dof) → tableGet s.fix (flat (nens c.dirs) x * c.dof + f) =
        (prescribed (specDirs c.dirs) (fun a s k => inForce a s k (valueEvents ops)) x f).map fun v =>
          match c.table with
          | some U => U (f + c.mapping (flat (nens c.dirs) x) * c.dof)
          | none => v := by
  obtain ⟨hv, -, hok⟩ := C30_last_setting_wins ops
  have hok' : FormOK c.form := by rw [hform]; exact hok
  obtain ⟨s, e, h1, -⟩ := build_spec c hok' hn
  refine ⟨s, e, h1.good.distinct, h1.good.size, ?_, ?_⟩
  · intro k hk
    have := (h1.keys k).1 hk
    rcases this with h | h
    · simp at h
    · exact fix_keys c hok' hn (fun _ _ => fval c) (fun i b => c.form.value i (if b then 1 else 0))
        (fun i b => (hok' _ _).1) h
  · intro x f hx hfr
    rw [h1.get]
    have : tableGet ([] : List (Int × V)) (flat (nens c.dirs) x * c.dof + f) = none := rfl
    rw [this, fix_get c hok' hn hx hfr, hform]
    have : (fun a s k => tableGet ((run create ops).value a s) k) = fun a s k => inForce a s k (valueEvents ops) := by
      funext a s k; exact hv a s k
    rw [this]
    rfl

/-- **C33.**  The list of loads has the same shape, and for each degree of freedom its entry is the sum over the
sides the node lies on of load times area of the side; there is none if there is no load. -/
theorem C33_flux_list {W : Type} [Semiring W] (c : Ctx W) (ops : List (Op W)) (hform : c.form = run create ops)
    (hn : ∀ d ∈ c.dirs, 1 ≤ d.nen) :
    ∃ s, build c = .ok s ∧ (s.flux.map Prod.fst).Nodup ∧ s.flux.length ≤ c.bufsize ∧
      (∀ k ∈ s.flux.map Prod.fst, ∃ (x : List Int) (f : Int), InBox (nens c.dirs) x ∧ (0 ≤ f ∧ f < c.dof) ∧
        k = flat (nens c.dirs) x * c.dof + f) ∧
      ∀ (x : List Int) (f : Int), InBox (nens c.dirs) x → (0 ≤ f ∧ f < c.dof) → tableGet s.flux (flat (nens c.dirs) x * c.dof + f) =
        match loads (specDirs c.dirs) (fun a s k => inForce a s k (loadEvents ops)) c.area x f with
        | [] => none
        | w :: ws => some ((w :: ws).sum) := by
  obtain ⟨-, hl, hok⟩ := C30_last_setting_wins ops
  have hok' : FormOK c.form := by rw [hform]; exact hok
  obtain ⟨s, e, -, h1⟩ := build_spec c hok' hn
  refine ⟨s, e, h1.good.distinct, h1.good.size, ?_, ?_⟩
  · intro k hk
    have := (h1.keys k).1 hk
    rcases this with h | h
    · simp at h
    · exact fix_keys c hok' hn (fun i b _ _ v => v * c.area i (if b then 1 else 0))
        (fun i b => c.form.load i (if b then 1 else 0)) (fun i b => (hok' _ _).2) h
  · intro x f hx hfr
    rw [h1.get]
    have : tableGet ([] : List (Int × W)) (flat (nens c.dirs) x * c.dof + f) = none := rfl
    rw [this, flux_get c hok' hn hx hfr, hform]
    have : (fun a s k => tableGet ((run create ops).load a s) k) = fun a s k => inForce a s k (loadEvents ops) := by
      funext a s k; exact hl a s k
    rw [this]

/-- A corner element of a 2-D grid with two Dirichlet sides, a load and a field that does not exist. -/
def exCtx : Ctx Int :=
  { dirs := [⟨3, 0, 0, 4, false⟩, ⟨2, 0, 0, 1, false⟩], dof := 2,
    form := run create [.setValue 0 0 0 5, .setValue 1 0 0 6, .setValue 1 0 7 9, .setLoad 1 1 1 3, .setLoad 0 0 1 4],
    table := none, mapping := fun a => a, area := fun a s => 10 + a + s }

example : build exCtx = .ok ⟨[(0, 6), (6, 5), (2, 6), (4, 6)], [(1, 40), (7, 76), (9, 36), (11, 36)]⟩ := by decide +kernel

example : exCtx.form = run create [.setValue 0 0 0 5, .setValue 1 0 0 6, .setValue 1 0 7 9, .setLoad 1 1 1 3,
    .setLoad 0 0 1 4] ∧ (∀ d ∈ exCtx.dirs, 1 ≤ d.nen) := ⟨rfl, by decide⟩

end PetIGA.Fix
