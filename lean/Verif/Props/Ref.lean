import Verif.Model.Ref
import Mathlib.Tactic.Ring
import Mathlib.Algebra.Order.Ring.Int
import Mathlib.Data.List.Count

/-! C58: reference counting. -/

namespace PetIGA.Ref

/-- The counters agree with the events. -/
structure Inv (s : State) : Prop where
  live : ∀ (o : Nat) ob, s.heap[o]? = some ob → ob.freed = false →
    ob.refct = (s.trace.count (.acquire o) : Int) - (s.trace.count (.release o) : Int) ∧ 0 < ob.refct ∧ s.trace.count (.free o) = 0
  dead : ∀ (o : Nat) ob, s.heap[o]? = some ob → ob.freed = true →
    s.trace.count (.acquire o) = s.trace.count (.release o) ∧ s.trace.count (.free o) = 1
  outside : ∀ o : Nat, s.heap.length ≤ o → s.trace.count (.acquire o) = 0 ∧ s.trace.count (.release o) = 0 ∧ s.trace.count (.free o) = 0

theorem inv_init : Inv init := ⟨by simp [init], by simp [init], by simp [init]⟩

theorem inv_of {s t : State} (h : Inv s) (h1 : t.heap = s.heap) (h2 : t.trace = s.trace) : Inv t := by
  obtain ⟨a, b, c⟩ := h
  exact ⟨by rw [h1, h2]; exact a, by rw [h1, h2]; exact b, by rw [h1, h2]; exact c⟩

theorem inv_alloc {s : State} (h : Inv s) : Inv (alloc s) := by
  obtain ⟨a, b, c⟩ := h
  have hn := c s.heap.length (le_refl _)
  refine ⟨?_, ?_, ?_⟩
  · intro o ob ho hf
    simp only [alloc] at ho ⊢
    rcases Nat.lt_trichotomy o s.heap.length with hlt | rfl | hgt
    · rw [List.getElem?_append_left hlt] at ho
      have := a o ob ho hf
      have hne : s.heap.length ≠ o := by omega
      simpa [List.count_append, List.count_cons, hne] using this
    · rw [List.getElem?_append_right (le_refl _)] at ho
      simp at ho
      subst ho
      simp [List.count_append, hn]
    · rw [List.getElem?_eq_none (by simp; omega)] at ho
      cases ho
  · intro o ob ho hf
    simp only [alloc] at ho ⊢
    rcases Nat.lt_trichotomy o s.heap.length with hlt | rfl | hgt
    · rw [List.getElem?_append_left hlt] at ho
      have := b o ob ho hf
      have hne : s.heap.length ≠ o := by omega
      simpa [List.count_append, List.count_cons, hne] using this
    · rw [List.getElem?_append_right (le_refl _)] at ho
      simp at ho
      subst ho
      simp at hf
    · rw [List.getElem?_eq_none (by simp; omega)] at ho
      cases ho
  · intro o ho
    simp only [alloc, List.length_append, List.length_singleton] at ho ⊢
    have := c o (by omega)
    have hne : s.heap.length ≠ o := by omega
    simpa [List.count_append, List.count_cons, hne] using this

theorem reference_eq {s t : State} {h : Option Nat} (e : reference s h = .ok t) :
    ∃ o n, h = some o ∧ s.heap[o]? = some ⟨n, false⟩ ∧
      t = { s with heap := s.heap.set o ⟨n+1, false⟩, trace := s.trace ++ [.acquire o] } := by
  unfold reference at e
  cases h with
  | none => simp at e
  | some o =>
    simp only at e
    split at e
    · rename_i n hn
      cases e
      exact ⟨o, n, rfl, hn, rfl⟩
    · cases e

theorem destroy_eq {s t : State} {h : Option Nat} (e : destroy s h = .ok t) :
    (h = none ∧ t = s) ∨ ∃ o n, h = some o ∧ s.heap[o]? = some ⟨n, false⟩ ∧
      (1 < n ∧ t = { s with heap := s.heap.set o ⟨n-1, false⟩, trace := s.trace ++ [.release o] } ∨
       n ≤ 1 ∧ t = { s with heap := s.heap.set o ⟨n-1, true⟩, trace := s.trace ++ [.release o, .free o] }) := by
  unfold destroy at e
  cases h with
  | none => left; simp at e; exact ⟨rfl, e.symm⟩
  | some o =>
    right
    simp only at e
    split at e
    · rename_i n hn
      split_ifs at e with h1
      · cases e
        exact ⟨o, n, rfl, hn, .inl ⟨by omega, rfl⟩⟩
      · cases e
        exact ⟨o, n, rfl, hn, .inr ⟨by omega, rfl⟩⟩
    · cases e

theorem lt_of_get {s : State} {o : Nat} {ob : Obj} (h : s.heap[o]? = some ob) : o < s.heap.length := by
  by_contra hc
  rw [List.getElem?_eq_none (by omega)] at h
  cases h

theorem inv_reference {s t : State} {h : Option Nat} (hi : Inv s) (e : reference s h = .ok t) : Inv t := by
  obtain ⟨o, n, rfl, hn, rfl⟩ := reference_eq e
  have hlt := lt_of_get hn
  obtain ⟨a, b, c⟩ := hi
  have ho := a o _ hn rfl
  refine ⟨?_, ?_, ?_⟩
  · intro o' ob ho' hf
    simp only at ho' ⊢
    by_cases he : o = o'
    · subst he
      rw [List.getElem?_set_self hlt] at ho'
      cases ho'
      simp only at ho ⊢
      simp [List.count_append]
      omega
    · rw [List.getElem?_set_ne he] at ho'
      have := a o' ob ho' hf
      simpa [List.count_append, List.count_cons, he] using this
  · intro o' ob ho' hf
    simp only at ho' ⊢
    by_cases he : o = o'
    · subst he
      rw [List.getElem?_set_self hlt] at ho'
      cases ho'
      simp at hf
    · rw [List.getElem?_set_ne he] at ho'
      have := b o' ob ho' hf
      simpa [List.count_append, List.count_cons, he] using this
  · intro o' ho'
    simp only [List.length_set] at ho' ⊢
    have := c o' ho'
    have he : o ≠ o' := by omega
    simpa [List.count_append, List.count_cons, he] using this

theorem inv_destroy {s t : State} {h : Option Nat} (hi : Inv s) (e : destroy s h = .ok t) : Inv t := by
  rcases destroy_eq e with ⟨rfl, rfl⟩ | ⟨o, n, rfl, hn, ⟨h1, rfl⟩ | ⟨h1, rfl⟩⟩
  · exact hi
  · have hlt := lt_of_get hn
    obtain ⟨a, b, c⟩ := hi
    have ho := a o _ hn rfl
    refine ⟨?_, ?_, ?_⟩
    · intro o' ob ho' hf
      simp only at ho' ⊢
      by_cases he : o = o'
      · subst he
        rw [List.getElem?_set_self hlt] at ho'
        cases ho'
        simp only at ho ⊢
        simp [List.count_append]
        omega
      · rw [List.getElem?_set_ne he] at ho'
        have := a o' ob ho' hf
        simpa [List.count_append, List.count_cons, he] using this
    · intro o' ob ho' hf
      simp only at ho' ⊢
      by_cases he : o = o'
      · subst he
        rw [List.getElem?_set_self hlt] at ho'
        cases ho'
        simp at hf
      · rw [List.getElem?_set_ne he] at ho'
        have := b o' ob ho' hf
        simpa [List.count_append, List.count_cons, he] using this
    · intro o' ho'
      simp only [List.length_set] at ho' ⊢
      have := c o' ho'
      have he : o ≠ o' := by omega
      simpa [List.count_append, List.count_cons, he] using this
  · have hlt := lt_of_get hn
    obtain ⟨a, b, c⟩ := hi
    have ho := a o _ hn rfl
    refine ⟨?_, ?_, ?_⟩
    · intro o' ob ho' hf
      simp only at ho' ⊢
      by_cases he : o = o'
      · subst he
        rw [List.getElem?_set_self hlt] at ho'
        cases ho'
        simp at hf
      · rw [List.getElem?_set_ne he] at ho'
        have := a o' ob ho' hf
        simpa [List.count_append, List.count_cons, he] using this
    · intro o' ob ho' hf
      simp only at ho' ⊢
      by_cases he : o = o'
      · subst he
        simp only at ho
        simp [List.count_append, List.count_cons]
        omega
      · rw [List.getElem?_set_ne he] at ho'
        have := b o' ob ho' hf
        simpa [List.count_append, List.count_cons, he] using this
    · intro o' ho'
      simp only [List.length_set] at ho' ⊢
      have := c o' ho'
      have he : o ≠ o' := by omega
      simpa [List.count_append, List.count_cons, he] using this

theorem bind_ok {α β : Type} {x : Res α} {f : α → Res β} {b : β} (h : x.bind f = .ok b) : ∃ a, x = .ok a ∧ f a = .ok b := by
  cases x with
  | ok a => exact ⟨a, rfl, h⟩
  | err e => cases h
  | ub => cases h

theorem inv_step {s t : State} {o : Op} (hi : Inv s) (e : step s o = .ok t) : Inv t := by
  cases o with
  | create v => cases e; exact inv_of (inv_alloc hi) rfl rfl
  | reference v => exact inv_reference hi e
  | destroy v => exact inv_destroy (inv_of hi (t := setVar s v none) rfl rfl) e
  | copy v w => cases e; exact inv_of hi rfl rfl
  | igaCreate => cases e; exact inv_of (inv_alloc hi) rfl rfl
  | getForm g v =>
    simp only [step] at e
    split at e
    · cases e; exact inv_of hi rfl rfl
    · cases e
  | setForm g v =>
    simp only [step] at e
    split at e
    · split_ifs at e with hv
      · cases e; exact hi
      · obtain ⟨s1, e1, e⟩ := bind_ok e
        obtain ⟨s2, e2, e⟩ := bind_ok e
        cases e
        exact inv_of (inv_destroy (inv_of (t := { s1 with igas := s1.igas.set g none }) (inv_reference hi e1) rfl rfl) e2) rfl rfl
    · cases e
  | igaDestroy g =>
    simp only [step] at e
    split at e
    · exact inv_destroy (inv_of hi (t := { s with igas := s.igas.set g none }) rfl rfl) e
    · cases e

theorem inv_run {s t : State} {ops : List Op} (hi : Inv s) (e : run s ops = .ok t) : Inv t := by
  induction ops generalizing s with
  | nil => cases e; exact hi
  | cons o ops ih =>
    obtain ⟨s1, e1, e⟩ := bind_ok e
    exact ih (inv_step hi e1) e

/-- **C58, exact release.**  After any run (balanced or not) that did not use a released object, an object is released if and
only if it was destroyed as many times as it was created and referenced; its memory was released exactly once in that
case and not at all otherwise; and the counter of a live object is the number of references still to be destroyed. -/
theorem C58_released_exactly (ops : List Op) (s : State) (h : run init ops = .ok s) (o : Nat) (ob : Obj)
    (ho : s.heap[o]? = some ob) :
    (ob.freed = true ↔ s.trace.count (.acquire o) = s.trace.count (.release o)) ∧
    s.trace.count (.free o) = (if ob.freed then 1 else 0) ∧
    (ob.freed = false → ob.refct = (s.trace.count (.acquire o) : Int) - (s.trace.count (.release o) : Int) ∧ 0 < ob.refct) := by
  have hi := inv_run inv_init h
  cases hf : ob.freed with
  | false =>
    obtain ⟨a, b, c⟩ := hi.live o ob ho hf
    refine ⟨?_, by simp [c], fun _ => ⟨a, b⟩⟩
    constructor
    · intro h; cases h
    · intro h; omega
  | true =>
    obtain ⟨a, c⟩ := hi.dead o ob ho hf
    exact ⟨by simp [a], by simp [c], by simp⟩

/-- **C58, use after release is the only error.**  `IGAFormReference` and `IGAFormDestroy` on a handle of a created object are
fine exactly as long as the object has an outstanding reference. -/
theorem C58_usable_iff (ops : List Op) (s : State) (h : run init ops = .ok s) (v o : Nat) (hv : s.vars v = some o)
    (ho : o < s.heap.length) :
    ((∃ t, step s (.reference v) = .ok t) ↔ s.trace.count (.release o) < s.trace.count (.acquire o)) ∧
    ((∃ t, step s (.destroy v) = .ok t) ↔ s.trace.count (.release o) < s.trace.count (.acquire o)) := by
  have hi := inv_run inv_init h
  obtain ⟨ob, hob⟩ : ∃ ob, s.heap[o]? = some ob := ⟨s.heap[o], by simp [ho]⟩
  obtain ⟨n, fr⟩ := ob
  cases fr with
  | true =>
    obtain ⟨a, -⟩ := hi.dead o _ hob rfl
    constructor
    · simp [step, reference, hv, hob, a]
    · simp [step, destroy, hv, hob, a, setVar]
  | false =>
    obtain ⟨a, b, -⟩ := hi.live o _ hob rfl
    simp only at a b
    have hlt : s.trace.count (.release o) < s.trace.count (.acquire o) := by omega
    constructor
    · simp [step, reference, hv, hob, hlt]
    · simp only [step, destroy, hv, setVar, hob, hlt, iff_true]
      by_cases hn : n - 1 > 0
      · exact ⟨_, by rw [if_pos hn]⟩
      · exact ⟨_, by rw [if_neg hn]⟩

/-! ### Programs that keep to the ownership rules -/

/-- The change an operation makes to the number of references of object `o` the program itself has to destroy: it creates,
references and destroys them.  References held by IGA objects are not counted. -/
def owns (s : State) (op : Op) (o : Nat) : Int :=
  match op with
  | .create _ => if o = s.heap.length then 1 else 0
  | .reference v => if s.vars v = some o then 1 else 0
  | .destroy v => if s.vars v = some o then -1 else 0
  | _ => 0

/-- The operation keeps to the rules, if the program has `own o` references of object `o` to destroy. -/
def Allowed (own : Nat → Int) (s : State) : Op → Prop
  | .reference v => ∃ o, s.vars v = some o ∧ (0 < own o ∨ some o ∈ s.igas)
  | .destroy v => ∀ o, s.vars v = some o → 0 < own o
  | .getForm g _ => ∃ o, s.igas[g]? = some (some o)
  | .setForm g v => (∃ o, s.igas[g]? = some (some o)) ∧ ∃ o, s.vars v = some o ∧ (0 < own o ∨ some o ∈ s.igas)
  | .igaDestroy g => ∃ o, s.igas[g]? = some (some o)
  | _ => True

/-- The program destroys only references it owns, uses a handle only while the object it names is owned by the program or by an
IGA object, and uses only IGA objects that exist. -/
def Disciplined : (Nat → Int) → State → List Op → Prop
  | _, _, [] => True
  | own, s, op :: ops =>
    Allowed own s op ∧ ∀ t, step s op = .ok t → Disciplined (fun o => own o + owns s op o) t ops

/-- Every counter is the number of owners: the program's references and the IGA objects using the form. -/
structure Own (own : Nat → Int) (s : State) : Prop where
  count : ∀ (o : Nat) ob, s.heap[o]? = some ob → ob.freed = false →
    ob.refct = own o + (s.igas.count (some o) : Int) ∧ 0 < ob.refct
  dead : ∀ (o : Nat) ob, s.heap[o]? = some ob → ob.freed = true → own o = 0 ∧ s.igas.count (some o) = 0
  outside : ∀ o : Nat, s.heap.length ≤ o → own o = 0 ∧ s.igas.count (some o) = 0
  nonneg : ∀ o, 0 ≤ own o

theorem own_init : Own (fun _ => 0) init := ⟨by simp [init], by simp [init], by simp [init], by simp⟩

theorem own_live {own : Nat → Int} {s : State} (h : Own own s) {o : Nat} (ho : 0 < own o ∨ some o ∈ s.igas) :
    ∃ n, s.heap[o]? = some ⟨n, false⟩ ∧ n = own o + (s.igas.count (some o) : Int) ∧ 0 < n := by
  have hp : own o ≠ 0 ∨ s.igas.count (some o) ≠ 0 := by
    rcases ho with ho | ho
    · left; omega
    · right; have := List.count_pos_iff.2 ho; omega
  by_cases hl : o < s.heap.length
  · obtain ⟨ob, hob⟩ : ∃ ob, s.heap[o]? = some ob := ⟨s.heap[o], by simp [hl]⟩
    obtain ⟨n, fr⟩ := ob
    cases fr with
    | true => have := h.dead o _ hob rfl; omega
    | false => exact ⟨n, hob, h.count o _ hob rfl⟩
  · have := h.outside o (by omega); omega

theorem own_congr {own own' : Nat → Int} {s t : State} (h : Own own s) (h1 : t.heap = s.heap) (h2 : t.igas = s.igas)
    (h3 : ∀ o, own' o = own o) : Own own' t := by
  obtain ⟨a, b, c, d⟩ := h
  have : own' = own := funext h3
  subst this
  exact ⟨by rw [h1, h2]; exact a, by rw [h1, h2]; exact b, by rw [h1, h2]; exact c, d⟩

/-- A new object owned by the program or by a new IGA object. -/
theorem own_alloc {own own' : Nat → Int} {s t : State} (h : Own own s) (h1 : t.heap = s.heap ++ [⟨1, false⟩])
    (h3 : ∀ o : Nat, own' o + (t.igas.count (some o) : Int) = own o + (s.igas.count (some o) : Int) + if o = s.heap.length then 1 else 0)
    (h4 : ∀ o, own o ≤ own' o) : Own own' t := by
  obtain ⟨a, b, c, d⟩ := h
  refine ⟨?_, ?_, ?_, fun o => by have := d o; have := h4 o; omega⟩
  · intro o ob ho hf
    rw [h1] at ho
    have h3 := h3 o
    rcases Nat.lt_trichotomy o s.heap.length with hlt | rfl | hgt
    · rw [List.getElem?_append_left hlt] at ho
      have := a o ob ho hf
      rw [if_neg (by omega)] at h3
      omega
    · rw [List.getElem?_append_right (le_refl _)] at ho
      simp at ho
      subst ho
      have := c _ (le_refl _)
      rw [if_pos rfl] at h3
      simp only
      omega
    · rw [List.getElem?_eq_none (by simp; omega)] at ho
      cases ho
  · intro o ob ho hf
    rw [h1] at ho
    have h3 := h3 o
    have h4 := h4 o
    rcases Nat.lt_trichotomy o s.heap.length with hlt | rfl | hgt
    · rw [List.getElem?_append_left hlt] at ho
      have := b o ob ho hf
      rw [if_neg (by omega)] at h3
      omega
    · rw [List.getElem?_append_right (le_refl _)] at ho
      simp at ho
      subst ho
      cases hf
    · rw [List.getElem?_eq_none (by simp; omega)] at ho
      cases ho
  · intro o ho
    rw [h1, List.length_append, List.length_singleton] at ho
    have := c o (by omega)
    have h3 := h3 o
    have h4 := h4 o
    rw [if_neg (by omega)] at h3
    omega

/-- One more or one less owner of a live object that keeps at least one. -/
theorem own_change {own own' : Nat → Int} {s t : State} (h : Own own s) (o n d : _) (hn : s.heap[o]? = some ⟨n, false⟩)
    (hp : 0 < n + d) (h1 : t.heap = s.heap.set o ⟨n + d, false⟩)
    (h3 : ∀ o' : Nat, own' o' + (t.igas.count (some o') : Int) = own o' + (s.igas.count (some o') : Int) + if o' = o then d else 0)
    (h4 : ∀ o, 0 ≤ own' o) : Own own' t := by
  have hlt := lt_of_get hn
  obtain ⟨a, b, c, e⟩ := h
  refine ⟨?_, ?_, ?_, h4⟩
  · intro o' ob ho hf
    rw [h1] at ho
    have h3 := h3 o'
    by_cases he : o = o'
    · subst he
      rw [List.getElem?_set_self hlt] at ho
      cases ho
      have := a o _ hn rfl
      rw [if_pos rfl] at h3
      simp only at this ⊢
      omega
    · rw [List.getElem?_set_ne he] at ho
      have := a o' ob ho hf
      rw [if_neg (by omega)] at h3
      omega
  · intro o' ob ho hf
    rw [h1] at ho
    have h3 := h3 o'
    have h4 := h4 o'
    by_cases he : o = o'
    · subst he
      rw [List.getElem?_set_self hlt] at ho
      cases ho
      cases hf
    · rw [List.getElem?_set_ne he] at ho
      have := b o' ob ho hf
      rw [if_neg (by omega)] at h3
      omega
  · intro o' ho
    rw [h1, List.length_set] at ho
    have := c o' ho
    have h3 := h3 o'
    have h4 := h4 o'
    rw [if_neg (by omega)] at h3
    omega

/-- The last owner of an object goes away. -/
theorem own_free {own own' : Nat → Int} {s t : State} (h : Own own s) (o n : _) (hn : s.heap[o]? = some ⟨n, false⟩)
    (hp : n ≤ 1) (h1 : t.heap = s.heap.set o ⟨n - 1, true⟩)
    (h3 : ∀ o' : Nat, own' o' + (t.igas.count (some o') : Int) = own o' + (s.igas.count (some o') : Int) + if o' = o then -1 else 0)
    (h4 : ∀ o, 0 ≤ own' o) : Own own' t := by
  have hlt := lt_of_get hn
  obtain ⟨a, b, c, e⟩ := h
  refine ⟨?_, ?_, ?_, h4⟩
  · intro o' ob ho hf
    rw [h1] at ho
    have h3 := h3 o'
    by_cases he : o = o'
    · subst he
      rw [List.getElem?_set_self hlt] at ho
      cases ho
      cases hf
    · rw [List.getElem?_set_ne he] at ho
      have := a o' ob ho hf
      rw [if_neg (by omega)] at h3
      omega
  · intro o' ob ho hf
    rw [h1] at ho
    have h3 := h3 o'
    have h4 := h4 o'
    by_cases he : o = o'
    · subst he
      have := a o _ hn rfl
      rw [if_pos rfl] at h3
      simp only at this
      omega
    · rw [List.getElem?_set_ne he] at ho
      have := b o' ob ho hf
      rw [if_neg (by omega)] at h3
      omega
  · intro o' ho
    rw [h1, List.length_set] at ho
    have := c o' ho
    have h3 := h3 o'
    have h4 := h4 o'
    rw [if_neg (by omega)] at h3
    omega

/-- A destroy by an owner. `s0` is the state before the handle was cleared. -/
theorem own_destroy {own own' : Nat → Int} {s0 s : State} (h : Own own s0) (o : Nat) (ho : 0 < own o ∨ some o ∈ s0.igas)
    (h1 : s.heap = s0.heap)
    (h3 : ∀ o' : Nat, own' o' + (s.igas.count (some o') : Int) = own o' + (s0.igas.count (some o') : Int) + if o' = o then -1 else 0)
    (h4 : ∀ o, 0 ≤ own' o) :
    ∃ t, destroy s (some o) = .ok t ∧ Own own' t ∧ t.igas = s.igas ∧ t.vars = s.vars := by
  obtain ⟨n, hn, -, hp⟩ := own_live h ho
  have hn' : s.heap[o]? = some ⟨n, false⟩ := by rw [h1]; exact hn
  by_cases h2 : n - 1 > 0
  · refine ⟨{ s with heap := s.heap.set o ⟨n-1, false⟩, trace := s.trace ++ [.release o] }, ?_, ?_, rfl, rfl⟩
    · simp only [destroy, hn']
      rw [if_pos h2]
    · exact own_change h o n (-1) hn (by omega) (by rw [← h1]; rfl) h3 h4
  · refine ⟨{ s with heap := s.heap.set o ⟨n-1, true⟩, trace := s.trace ++ [.release o, .free o] }, ?_, ?_, rfl, rfl⟩
    · simp only [destroy, hn']
      rw [if_neg h2]
    · exact own_free h o n hn (by omega) (by rw [← h1]) h3 h4

theorem count_set (l : List (Option Nat)) (g : Nat) (a b : Option Nat) (h : l[g]? = some a) (c : Option Nat) :
    ((l.set g b).count c : Int) = (l.count c : Int) - (if a = c then 1 else 0) + (if b = c then 1 else 0) := by
  induction l generalizing g with
  | nil => simp at h
  | cons x l ih =>
    cases g with
    | zero =>
      simp at h
      subst h
      simp only [List.set_cons_zero, List.count_cons, beq_iff_eq]
      split_ifs <;> push_cast <;> omega
    | succ g =>
      have := ih g (by simpa using h)
      simp only [List.set_cons_succ, List.count_cons]
      push_cast
      omega

theorem own_step {own : Nat → Int} {s : State} {op : Op} (h : Own own s) (ha : Allowed own s op) :
    ∃ t, step s op = .ok t ∧ Own (fun o => own o + owns s op o) t := by
  cases op with
  | create v =>
    refine ⟨_, rfl, own_alloc h rfl ?_ ?_⟩
    · intro o; simp only [setVar, alloc, owns]; split_ifs <;> omega
    · intro o; simp only [owns]; split_ifs <;> omega
  | reference v =>
    obtain ⟨o, hv, ho⟩ := ha
    obtain ⟨n, hn, -, hp⟩ := own_live h ho
    refine ⟨{ s with heap := s.heap.set o ⟨n+1, false⟩, trace := s.trace ++ [.acquire o] }, ?_, ?_⟩
    · simp only [step, reference, hv, hn]
    · refine own_change h o n 1 hn (by omega) rfl ?_ ?_
      · intro o'; simp only [owns, hv, Option.some.injEq, eq_comm (a := o)]; split_ifs <;> omega
      · intro o'; have := h.nonneg o'; simp only [owns]; split_ifs <;> omega
  | destroy v =>
    simp only [Allowed] at ha
    simp only [step, owns]
    cases hv : s.vars v with
    | none =>
      refine ⟨setVar s v none, rfl, own_congr h rfl rfl ?_⟩
      intro o; simp
    | some o =>
      have ho := ha o hv
      obtain ⟨t, h1, h2, -⟩ := own_destroy (own' := fun o' => own o' + (if s.vars v = some o' then -1 else 0)) h o (.inl ho)
        (s := setVar s v none) rfl (by
          intro o'; simp only [hv, Option.some.injEq, eq_comm (a := o), setVar]; split_ifs <;> omega) (by
          intro o'; have := h.nonneg o'; simp only [hv, Option.some.injEq]
          split_ifs with he
          · subst he; omega
          · omega)
      rw [hv] at h2
      exact ⟨t, h1, h2⟩
  | copy v w => exact ⟨_, rfl, own_congr h rfl rfl (by simp [owns])⟩
  | igaCreate =>
    refine ⟨_, rfl, own_alloc h rfl ?_ ?_⟩
    · intro o
      simp only [alloc, owns, List.count_append, List.count_cons, List.count_nil, beq_iff_eq, Option.some.injEq, eq_comm (a := s.heap.length)]
      split_ifs <;> push_cast <;> omega
    · intro o; simp [owns]
  | getForm g v =>
    obtain ⟨o, ho⟩ := ha
    refine ⟨setVar s v (some o), by simp only [step, ho], own_congr h rfl rfl (by simp [owns])⟩
  | setForm g v =>
    obtain ⟨⟨o, ho⟩, o', hv, ho'⟩ := ha
    by_cases he : o' = o
    · subst he
      refine ⟨s, ?_, own_congr h rfl rfl (by simp [owns])⟩
      simp only [step, ho]
      rw [if_pos hv]
    · obtain ⟨n, hn, -, hp⟩ := own_live h ho'
      have hmem : some o ∈ s.igas := List.mem_of_getElem? ho
      -- after the reference, the program owns one more
      obtain ⟨s1, h1, hs1⟩ : ∃ s1, reference s (some o') = .ok s1 ∧
          s1 = { s with heap := s.heap.set o' ⟨n+1, false⟩, trace := s.trace ++ [.acquire o'] } :=
        ⟨_, by simp only [reference, hn], rfl⟩
      have hO1 : Own (fun x => own x + if x = o' then 1 else 0) s1 := by
        refine own_change h o' n 1 hn (by omega) (by rw [hs1]) ?_ ?_
        · intro x; rw [hs1]; simp only; split_ifs <;> omega
        · intro x; have := h.nonneg x; split_ifs <;> omega
      have hig : s1.igas = s.igas := by rw [hs1]
      have hvar : s1.vars = s.vars := by rw [hs1]
      obtain ⟨t, h2, hO2, hti, htv⟩ := own_destroy (own' := fun x => own x + if x = o' then 1 else 0) hO1 o
        (.inr (by rw [hig]; exact hmem)) (s := { s1 with igas := s1.igas.set g none }) rfl (by
          intro x
          simp only
          rw [count_set s1.igas g (some o) none (by rw [hig]; exact ho)]
          simp only [Option.some.injEq, reduceCtorEq, if_false, eq_comm (a := o)]
          split_ifs <;> omega) hO1.nonneg
      refine ⟨{ t with igas := t.igas.set g (t.vars v) }, ?_, ?_⟩
      · simp only [step, ho]
        rw [if_neg (by rw [hv]; simpa using he), hv, h1]
        show (destroy { s1 with igas := s1.igas.set g none } (some o)).bind _ = _
        rw [h2]
        rfl
      · have hc : ∀ x : Nat, ((t.igas.set g (t.vars v)).count (some x) : Int) = (t.igas.count (some x) : Int) + if x = o' then 1 else 0 := by
          intro x
          have hg : t.igas[g]? = some none := by
            rw [hti]
            simp only
            rw [List.getElem?_set_self (by
              rw [hig]
              by_contra hc
              rw [List.getElem?_eq_none (by omega)] at ho
              cases ho)]
          rw [count_set t.igas g none (t.vars v) hg, htv]
          simp only [hvar, hv, Option.some.injEq, reduceCtorEq, if_false, eq_comm (a := o')]
          omega
        obtain ⟨a, b, c, d⟩ := hO2
        refine ⟨?_, ?_, ?_, ?_⟩
        · intro x ob hx hf
          have := a x ob hx hf
          simp only [owns, hc]
          omega
        · intro x ob hx hf
          have := b x ob hx hf
          have hn := h.nonneg x
          simp only [owns, ← Int.natCast_inj, hc]
          split_ifs at this ⊢ <;> omega
        · intro x hx
          have := c x hx
          have hn := h.nonneg x
          simp only [owns, ← Int.natCast_inj, hc]
          split_ifs at this ⊢ <;> omega
        · intro x; have := h.nonneg x; simp only [owns]; omega
  | igaDestroy g =>
    obtain ⟨o, ho⟩ := ha
    obtain ⟨t, h2, hO2, -⟩ := own_destroy (own' := fun x => own x + owns s (.igaDestroy g) x) h o (.inr (List.mem_of_getElem? ho))
      (s := { s with igas := s.igas.set g none }) rfl (by
        intro x
        simp only [owns]
        rw [count_set s.igas g (some o) none ho]
        simp only [Option.some.injEq, reduceCtorEq, if_false, eq_comm (a := o)]
        split_ifs <;> omega) (by intro x; have := h.nonneg x; simp only [owns]; omega)
    exact ⟨t, by simp only [step, ho]; exact h2, hO2⟩

/-- What a run adds to the program's own references of `o`. -/
def ownedBy (s : State) (ops : List Op) (o : Nat) : Int :=
  match ops with
  | [] => 0
  | op :: ops => owns s op o + (match step s op with | .ok t => ownedBy t ops o | _ => 0)

theorem own_run {own : Nat → Int} {s : State} {ops : List Op} (h : Own own s) (ha : Disciplined own s ops) :
    ∃ t, run s ops = .ok t ∧ Own (fun o => own o + ownedBy s ops o) t := by
  induction ops generalizing own s with
  | nil => exact ⟨s, rfl, own_congr h rfl rfl (by simp [ownedBy])⟩
  | cons op ops ih =>
    obtain ⟨h1, h2⟩ := ha
    obtain ⟨t, e, ho⟩ := own_step h h1
    obtain ⟨u, e2, ho2⟩ := ih ho (h2 t e)
    refine ⟨u, ?_, own_congr ho2 rfl rfl ?_⟩
    · show (step s op).bind _ = _
      rw [e]
      exact e2
    · intro o
      simp only [ownedBy, e]
      ring

/-- **C58, disciplined programs.**  A program that destroys only what it created or referenced, whatever the order in which it
does so and however it shares forms between IGA objects, never touches a released object; the form of every IGA object
is alive; and an object is alive exactly as long as the program or some IGA object still owns it. -/
theorem C58_disciplined (ops : List Op) (h : Disciplined (fun _ => 0) init ops) :
    ∃ s, run init ops = .ok s ∧
      (∀ (g o : Nat), s.igas[g]? = some (some o) → ∃ n, s.heap[o]? = some ⟨n, false⟩) ∧
      (∀ (o : Nat) ob, s.heap[o]? = some ob →
        (ob.freed = false ↔ (0 < ownedBy init ops o ∨ some o ∈ s.igas))) := by
  obtain ⟨s, e, ho⟩ := own_run own_init h
  refine ⟨s, e, ?_, ?_⟩
  · intro g o hg
    obtain ⟨n, hn, -⟩ := own_live ho (.inr (List.mem_of_getElem? hg))
    exact ⟨n, hn⟩
  · intro o ob hob
    constructor
    · intro hf
      have h1 := ho.count o ob hob hf
      by_cases hm : some o ∈ s.igas
      · exact .inr hm
      · left
        have := List.count_eq_zero.2 hm
        omega
    · intro hl
      obtain ⟨n, hn, -⟩ := own_live ho (o := o) (by simpa using hl)
      rw [hn] at hob
      cases hob
      rfl

/-! ### Non-vacuity -/

/-- A form created by the program, given to two IGA objects and dropped by the program; one IGA is destroyed, the form is set
again on the other (no effect) and the other is destroyed. -/
def exProg : List Op :=
  [.create 0, .igaCreate, .igaCreate, .setForm 0 0, .setForm 1 0, .destroy 0, .igaDestroy 0, .getForm 1 5, .setForm 1 5]

/-- The example program runs; the two forms the IGA objects were created with are released, the shared one is alive and
released by the last `IGADestroy`. -/
example : (match run init exProg with | .ok s => some s.heap | _ => none) = some [⟨1, false⟩, ⟨0, true⟩, ⟨0, true⟩] ∧
    (match run init (exProg ++ [.igaDestroy 1]) with | .ok s => some s.heap | _ => none) = some [⟨0, true⟩, ⟨0, true⟩, ⟨0, true⟩] := by
  decide

/-- One more destroy through a copy of the handle is a use of released memory. -/
example : (match run init [.create 0, .copy 1 0, .destroy 0, .destroy 1] with | .ub => true | _ => false) = true := by decide

example : Disciplined (fun _ => 0) init exProg := by
  simp [Disciplined, exProg, Allowed, step, init, alloc, setVar, owns, reference, destroy, Res.bind]

end PetIGA.Ref
