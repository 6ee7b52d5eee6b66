import Verif.Model.DMIGA
import Mathlib.Data.List.Count

/-!
Reference counts of the `DM` layer: the invariant behind C101.
-/

set_option linter.unusedSectionVars false

namespace PetIGA.DMI

/-- A `DM` that is not released and holds IGA `i`. -/
def holdsD (i : Nat) (m : Dm) : Bool := !m.freed && decide (m.iga = some i)
/-- A vector or matrix that is not released and holds IGA `i`. -/
def holdsO (i : Nat) (b : Obj) : Bool := !b.freed && decide (b.iga = some i)
/-- A vector or matrix that is not released and holds `DM` `d`. -/
def attached (d : Nat) (b : Obj) : Bool := !b.freed && decide (b.dm = some d)

/-- References to IGA `i` from other objects. -/
def refsI (s : State) (i : Nat) : Nat := s.dms.countP (holdsD i) + s.objs.countP (holdsO i)
/-- References to `DM` `d` from other objects. -/
def refsD (s : State) (d : Nat) : Nat := s.objs.countP (attached d)

/-- Every counter is the number of references, `hI` and `hD` of which are not held by other objects. -/
structure Inv (hI hD : Nat → Nat) (s : State) : Prop where
  iga : ∀ (i : Nat) (g : Iga), s.igas[i]? = some g →
    g.refct = ((hI i + refsI s i : Nat) : Int) ∧ (g.freed = true ↔ g.refct = 0)
  igaOut : ∀ i : Nat, s.igas.length ≤ i → hI i = 0 ∧ refsI s i = 0
  dm : ∀ (d : Nat) (m : Dm), s.dms[d]? = some m →
    m.refct = ((hD d + refsD s d : Nat) : Int) ∧ (m.freed = true ↔ m.refct = 0)
  dmOut : ∀ d : Nat, s.dms.length ≤ d → hD d = 0 ∧ refsD s d = 0

theorem liveI_eq {s : State} {i : Nat} {g : Iga} (h : liveI s i = some g) : s.igas[i]? = some g ∧ g.freed = false := by
  unfold liveI at h
  cases hg : s.igas[i]? with
  | none => simp [hg] at h
  | some g' =>
    simp only [hg, Option.bind_some] at h
    split at h
    · exact absurd h (by simp)
    · rename_i hf
      simp only [Option.some.injEq] at h
      subst h
      exact ⟨rfl, by simpa using hf⟩

theorem liveD_eq {s : State} {d : Nat} {m : Dm} (h : liveD s d = some m) : s.dms[d]? = some m ∧ m.freed = false := by
  unfold liveD at h
  cases hg : s.dms[d]? with
  | none => simp [hg] at h
  | some g' =>
    simp only [hg, Option.bind_some] at h
    split at h
    · exact absurd h (by simp)
    · rename_i hf
      simp only [Option.some.injEq] at h
      subst h
      exact ⟨rfl, by simpa using hf⟩

theorem liveI_of {s : State} {i : Nat} {g : Iga} (h : s.igas[i]? = some g) (hf : g.freed = false) : liveI s i = some g := by
  simp [liveI, h, hf]

theorem liveD_of {s : State} {d : Nat} {m : Dm} (h : s.dms[d]? = some m) (hf : m.freed = false) : liveD s d = some m := by
  simp [liveD, h, hf]

theorem get_set_self {α : Type} {l : List α} {i : Nat} {a b : α} (h : l[i]? = some a) : (l.set i b)[i]? = some b := by
  have := (List.getElem?_eq_some_iff.1 h).1
  simp [this]

theorem get_set_other {α : Type} {l : List α} {i j : Nat} {b : α} (h : j ≠ i) : (l.set i b)[j]? = l[j]? := by
  simp [List.getElem?_set, Ne.symm h]

theorem bump_self (f : Nat → Nat) (k : Nat) : bump f k k = f k + 1 := by simp [bump]
theorem bump_other (f : Nat → Nat) {k j : Nat} (h : j ≠ k) : bump f k j = f j := by simp [bump, h]

theorem bump_drop {f : Nat → Nat} {k : Nat} (h : f k ≠ 0) : bump (drop f k) k = f := by
  funext j
  unfold bump drop
  by_cases hj : j = k
  · subst hj; simp; omega
  · simp [hj]

/-- Counting after one entry is replaced. -/
theorem count_set {α : Type} (p : α → Bool) {l : List α} {i : Nat} {a b : α} (h : l[i]? = some a) :
    (l.set i b).countP p + (if p a then 1 else 0) = l.countP p + (if p b then 1 else 0) := by
  induction l generalizing i with
  | nil => simp at h
  | cons c l ih =>
    cases i with
    | zero =>
      simp only [List.getElem?_cons_zero, Option.some.injEq] at h
      subst h
      simp only [List.set_cons_zero, List.countP_cons]
      omega
    | succ i =>
      simp only [List.getElem?_cons_succ] at h
      have := ih h
      simp only [List.set_cons_succ, List.countP_cons]
      omega

theorem count_set_same {α : Type} (p : α → Bool) {l : List α} {i : Nat} {a b : α} (h : l[i]? = some a) (hp : p b = p a) :
    (l.set i b).countP p = l.countP p := by
  have := count_set p (b := b) h
  rw [hp] at this
  omega

/-- Changing an IGA's other fields. -/
theorem Inv.putI {hI hD : Nat → Nat} {s : State} (h : Inv hI hD s) {i : Nat} {g g' : Iga} (hg : s.igas[i]? = some g)
    (hr : g'.refct = g.refct) (hf : g'.freed = g.freed) : Inv hI hD (putI s i g') := by
  refine ⟨fun j k hk => ?_, fun j hj => ?_, h.dm, h.dmOut⟩
  · by_cases e : j = i
    · subst e
      rw [show (DMI.putI s j g').igas = s.igas.set j g' from rfl, get_set_self hg] at hk
      cases hk
      rw [hr, hf]
      exact h.iga j g hg
    · rw [show (DMI.putI s i g').igas = s.igas.set i g' from rfl, get_set_other e] at hk
      exact h.iga j k hk
  · exact h.igaOut j (by simpa [DMI.putI] using hj)

/-- Changing a `DM`'s other fields. -/
theorem Inv.putD {hI hD : Nat → Nat} {s : State} (h : Inv hI hD s) {d : Nat} {m m' : Dm} (hm : s.dms[d]? = some m)
    (hr : m'.refct = m.refct) (hf : m'.freed = m.freed) (hi : m'.iga = m.iga) : Inv hI hD (putD s d m') := by
  have hc : ∀ i : Nat, refsI (DMI.putD s d m') i = refsI s i := by
    intro i
    unfold refsI
    rw [show (DMI.putD s d m').dms = s.dms.set d m' from rfl, count_set_same _ hm (by simp [holdsD, hf, hi])]
    rfl
  refine ⟨fun j k hk => ?_, fun j hj => ?_, fun e k hk => ?_, fun e he => ?_⟩
  · rw [hc]; exact h.iga j k hk
  · rw [hc]; exact h.igaOut j hj
  · by_cases he : e = d
    · subst he
      rw [show (DMI.putD s e m').dms = s.dms.set e m' from rfl, get_set_self hm] at hk
      cases hk
      rw [hr, hf]
      exact h.dm e m hm
    · rw [show (DMI.putD s d m').dms = s.dms.set d m' from rfl, get_set_other he] at hk
      exact h.dm e k hk
  · exact h.dmOut e (by simpa [DMI.putD] using he)

theorem Inv.held {hI hD : Nat → Nat} {s : State} (h : Inv hI hD s) (a b : Nat → Nat) (n : Nat) :
    Inv hI hD { s with heldI := a, heldD := b, next := n } := ⟨h.iga, h.igaOut, h.dm, h.dmOut⟩

theorem inv_init : Inv (fun _ => 0) (fun _ => 0) init := by
  refine ⟨fun i g h => by simp [init] at h, fun i _ => ⟨rfl, by simp [refsI, init]⟩, fun i g h => by simp [init] at h,
    fun i _ => ⟨rfl, by simp [refsD, init]⟩⟩

theorem Inv.refI {hI hD : Nat → Nat} {s s' : State} {i : Nat} (h : Inv hI hD s) (hs : refI s i = .done s') :
    Inv (bump hI i) hD s' := by
  unfold DMI.refI at hs
  cases hl : liveI s i with
  | none => simp [hl] at hs
  | some g =>
    simp only [hl, Out.done.injEq] at hs
    subst hs
    obtain ⟨hg, hf⟩ := liveI_eq hl
    have h0 := h.iga i g hg
    refine ⟨fun j k hk => ?_, fun j hj => ?_, h.dm, h.dmOut⟩
    · by_cases e : j = i
      · subst e
        rw [show (DMI.putI s j _).igas = s.igas.set j _ from rfl, get_set_self hg] at hk
        cases hk
        have : refsI (DMI.putI s j { g with refct := g.refct + 1 }) j = refsI s j := rfl
        rw [this, bump_self]
        refine ⟨by simp only [h0.1]; push_cast; omega, ?_⟩
        simp only [hf]
        constructor
        · simp
        · intro hz; exfalso; have := h0.1; omega
      · rw [show (DMI.putI s i _).igas = s.igas.set i _ from rfl, get_set_other e] at hk
        rw [bump_other _ e]
        exact h.iga j k hk
    · have hj' : s.igas.length ≤ j := by simpa [DMI.putI] using hj
      have hlt := (List.getElem?_eq_some_iff.1 hg).1
      rw [bump_other _ (by omega)]
      exact h.igaOut j hj'

theorem Inv.refD {hI hD : Nat → Nat} {s s' : State} {d : Nat} (h : Inv hI hD s) (hs : refD s d = .done s') :
    Inv hI (bump hD d) s' := by
  unfold DMI.refD at hs
  cases hl : liveD s d with
  | none => simp [hl] at hs
  | some m =>
    simp only [hl, Out.done.injEq] at hs
    subst hs
    obtain ⟨hm, hf⟩ := liveD_eq hl
    have h0 := h.dm d m hm
    have hc : ∀ i : Nat, refsI (DMI.putD s d { m with refct := m.refct + 1 }) i = refsI s i := by
      intro i
      unfold refsI
      rw [show (DMI.putD s d { m with refct := m.refct + 1 }).dms = s.dms.set d _ from rfl,
        count_set_same _ hm (by simp [holdsD])]
      rfl
    refine ⟨fun j k hk => ?_, fun j hj => ?_, fun e k hk => ?_, fun e he => ?_⟩
    · rw [hc]; exact h.iga j k hk
    · rw [hc]; exact h.igaOut j hj
    · by_cases he : e = d
      · subst he
        rw [show (DMI.putD s e _).dms = s.dms.set e _ from rfl, get_set_self hm] at hk
        cases hk
        have : refsD (DMI.putD s e { m with refct := m.refct + 1 }) e = refsD s e := rfl
        rw [this, bump_self]
        refine ⟨by simp only [h0.1]; push_cast; omega, ?_⟩
        simp only [hf]
        constructor
        · simp
        · intro hz; exfalso; have := h0.1; omega
      · rw [show (DMI.putD s d _).dms = s.dms.set d _ from rfl, get_set_other he] at hk
        rw [bump_other _ he]
        exact h.dm e k hk
    · have he' : s.dms.length ≤ e := by simpa [DMI.putD] using he
      have hlt := (List.getElem?_eq_some_iff.1 hm).1
      rw [bump_other _ (by omega)]
      exact h.dmOut e he'

theorem Inv.destroyI {hI hD : Nat → Nat} {s s' : State} {i : Nat} (h : Inv (bump hI i) hD s)
    (hs : destroyI s i = .done s') : Inv hI hD s' := by
  unfold DMI.destroyI at hs
  cases hl : liveI s i with
  | none => simp [hl] at hs
  | some g =>
    obtain ⟨hg, hf⟩ := liveI_eq hl
    have h0 := h.iga i g hg
    rw [bump_self] at h0
    have key : ∀ b : Bool, (b = true ↔ g.refct - 1 = 0) →
        Inv hI hD (DMI.putI s i { g with refct := g.refct - 1, freed := b }) := by
      intro b hb
      refine ⟨fun j k hk => ?_, fun j hj => ?_, h.dm, h.dmOut⟩
      · by_cases e : j = i
        · subst e
          rw [show (DMI.putI s j _).igas = s.igas.set j _ from rfl, get_set_self hg] at hk
          cases hk
          have : refsI (DMI.putI s j { g with refct := g.refct - 1, freed := b }) j = refsI s j := rfl
          rw [this]
          exact ⟨by simp only [h0.1]; push_cast; omega, hb⟩
        · rw [show (DMI.putI s i _).igas = s.igas.set i _ from rfl, get_set_other e] at hk
          have := h.iga j k hk
          rwa [bump_other _ e] at this
      · have hj' : s.igas.length ≤ j := by simpa [DMI.putI] using hj
        have hlt := (List.getElem?_eq_some_iff.1 hg).1
        have := h.igaOut j hj'
        rwa [bump_other _ (by omega)] at this
    simp only [hl] at hs
    split at hs
    · simp only [Out.done.injEq] at hs
      subst hs
      have := key false (by simp; omega)
      rw [← hf] at this
      exact this
    · split at hs
      · simp only [Out.done.injEq] at hs
        subst hs
        exact key true (by have := h0.1; simp; omega)
      · exact absurd hs (by simp)

/-- A `DM` gives up (or takes over) its reference to an IGA. -/
theorem Inv.destroyD {hI hD : Nat → Nat} {s s' : State} {d : Nat} (h : Inv hI (bump hD d) s)
    (hs : destroyD s d = .done s') : Inv hI hD s' := by
  unfold DMI.destroyD at hs
  cases hl : liveD s d with
  | none => simp [hl] at hs
  | some m =>
    obtain ⟨hm, hf⟩ := liveD_eq hl
    have h0 := h.dm d m hm
    rw [bump_self] at h0
    have hdm : ∀ b : Bool, (b = true ↔ m.refct - 1 = 0) → ∀ (e : Nat) (k : Dm),
        (DMI.putD s d { m with refct := m.refct - 1, freed := b }).dms[e]? = some k →
        k.refct = ((hD e + refsD (DMI.putD s d { m with refct := m.refct - 1, freed := b }) e : Nat) : Int) ∧
        (k.freed = true ↔ k.refct = 0) := by
      intro b hb e k hk
      by_cases he : e = d
      · subst he
        rw [show (DMI.putD s e _).dms = s.dms.set e _ from rfl, get_set_self hm] at hk
        cases hk
        have : refsD (DMI.putD s e { m with refct := m.refct - 1, freed := b }) e = refsD s e := rfl
        rw [this]
        exact ⟨by simp only [h0.1]; push_cast; omega, hb⟩
      · rw [show (DMI.putD s d _).dms = s.dms.set d _ from rfl, get_set_other he] at hk
        have := h.dm e k hk
        rwa [bump_other _ he] at this
    have hdo : ∀ b : Bool, ∀ e : Nat, (DMI.putD s d { m with refct := m.refct - 1, freed := b }).dms.length ≤ e →
        hD e = 0 ∧ refsD (DMI.putD s d { m with refct := m.refct - 1, freed := b }) e = 0 := by
      intro b e he
      have he' : s.dms.length ≤ e := by simpa [DMI.putD] using he
      have hlt := (List.getElem?_eq_some_iff.1 hm).1
      have := h.dmOut e he'
      rwa [bump_other _ (by omega)] at this
    simp only [hl] at hs
    split at hs
    · simp only [Out.done.injEq] at hs
      subst hs
      have hdm' := hdm false (by simp; omega)
      have hdo' := hdo false
      rw [← hf] at hdm' hdo'
      have hc : ∀ i : Nat, refsI (DMI.putD s d { m with refct := m.refct - 1 }) i = refsI s i := by
        intro i
        unfold refsI
        rw [show (DMI.putD s d { m with refct := m.refct - 1 }).dms = s.dms.set d _ from rfl,
          count_set_same _ hm (by simp [holdsD])]
        rfl
      exact ⟨fun j k hk => by rw [hc]; exact h.iga j k hk, fun j hj => by rw [hc]; exact h.igaOut j hj, hdm', hdo'⟩
    · have hdm' := hdm true (by have := h0.1; simp; omega)
      have hdo' := hdo true
      have hc : ∀ i : Nat, refsI (DMI.putD s d { m with refct := m.refct - 1, freed := true }) i +
          (if m.iga = some i then 1 else 0) = refsI s i := by
        intro i
        unfold refsI
        have := count_set (holdsD i) (b := { m with refct := m.refct - 1, freed := true }) hm
        rw [show (DMI.putD s d { m with refct := m.refct - 1, freed := true }).dms = s.dms.set d _ from rfl,
          show (DMI.putD s d { m with refct := m.refct - 1, freed := true }).objs = s.objs from rfl]
        simp only [holdsD, hf, Bool.not_false, Bool.true_and, decide_eq_true_eq, Bool.not_true, Bool.false_and,
          Bool.false_eq_true, if_false] at this
        omega
      cases hi : m.iga with
      | none =>
        simp only [hi, Out.done.injEq] at hs
        subst hs
        simp only [hi] at hdm' hdo' hc
        refine ⟨fun j k hk => ?_, fun j hj => ?_, hdm', hdo'⟩
        · have := hc j
          simp only [reduceCtorEq, if_false, Nat.add_zero] at this
          rw [this]; exact h.iga j k hk
        · have := hc j
          simp only [reduceCtorEq, if_false, Nat.add_zero] at this
          rw [this]; exact h.igaOut j hj
      | some i =>
        simp only [hi] at hs
        refine Inv.destroyI (i := i) ?_ hs
        simp only [hi] at hdm' hdo' hc
        refine ⟨fun j k hk => ?_, fun j hj => ?_, hdm', hdo'⟩
        · have hj := hc j
          have := h.iga j k hk
          by_cases e : j = i
          · subst e
            rw [bump_self]
            simp only [if_true] at hj
            refine ⟨?_, this.2⟩
            rw [this.1]; congr 1; omega
          · rw [bump_other _ e]
            rw [if_neg (by simpa using Ne.symm e)] at hj
            refine ⟨?_, this.2⟩
            rw [this.1]; congr 1; omega
        · have hj1 := hc j
          have := h.igaOut j hj
          by_cases e : j = i
          · subst e
            simp only [if_true] at hj1
            omega
          · rw [bump_other _ e]
            omega

/-- A new IGA with one reference. -/
theorem Inv.newI {hI hD : Nat → Nat} {s : State} (h : Inv hI hD s) (g : Iga) (hr : g.refct = 1) (hf : g.freed = false) :
    Inv (bump hI s.igas.length) hD { s with igas := s.igas ++ [g] } := by
  refine ⟨fun j k hk => ?_, fun j hj => ?_, h.dm, h.dmOut⟩
  · by_cases e : j = s.igas.length
    · subst e
      simp only [List.getElem?_append_right (Nat.le_refl _), Nat.sub_self, List.getElem?_cons_zero, Option.some.injEq] at hk
      subst hk
      have := h.igaOut s.igas.length (Nat.le_refl _)
      rw [bump_self, this.1]
      have h2 : refsI { s with igas := s.igas ++ [g] } s.igas.length = 0 := this.2
      rw [h2, hr, hf]
      simp
    · have hlt : j < s.igas.length := by
        have := (List.getElem?_eq_some_iff.1 hk).1
        simp at this
        omega
      rw [bump_other _ e]
      refine h.iga j k ?_
      simpa [List.getElem?_append_left hlt] using hk
  · simp only [List.length_append, List.length_cons, List.length_nil] at hj
    rw [bump_other _ (by omega)]
    exact h.igaOut j (by omega)

/-- A new `DM` that takes over a reference to an IGA, or has none. -/
theorem Inv.newD {hI hD : Nat → Nat} {s : State} {m : Dm} (hr : m.refct = 1) (hf : m.freed = false)
    (h : Inv (match m.iga with | none => hI | some i => bump hI i) hD s) :
    Inv hI (bump hD s.dms.length) { s with dms := s.dms ++ [m] } := by
  have hc : ∀ i : Nat, refsI { s with dms := s.dms ++ [m] } i = refsI s i + (if m.iga = some i then 1 else 0) := by
    intro i
    unfold refsI
    simp only [List.countP_append, List.countP_cons, List.countP_nil, holdsD, hf, Bool.not_false, Bool.true_and,
      decide_eq_true_eq]
    omega
  have hb : ∀ i : Nat, (match m.iga with | none => hI | some i => bump hI i) i = hI i + (if m.iga = some i then 1 else 0) := by
    intro i
    cases hi : m.iga with
    | none => simp
    | some j =>
      by_cases e : i = j
      · subst e; simp [bump_self]
      · simp [bump_other _ e, Ne.symm e]
  refine ⟨fun j k hk => ?_, fun j hj => ?_, fun e k hk => ?_, fun e he => ?_⟩
  · have := h.iga j k hk
    rw [hc]
    refine ⟨?_, this.2⟩
    rw [this.1, hb]; congr 1; omega
  · have := h.igaOut j hj
    rw [hb] at this
    rw [hc]
    omega
  · have hd : ∀ e : Nat, refsD { s with dms := s.dms ++ [m] } e = refsD s e := fun _ => rfl
    rw [hd]
    by_cases he : e = s.dms.length
    · subst he
      simp only [List.getElem?_append_right (Nat.le_refl _), Nat.sub_self, List.getElem?_cons_zero, Option.some.injEq] at hk
      subst hk
      have := h.dmOut s.dms.length (Nat.le_refl _)
      rw [bump_self, this.1, this.2, hr, hf]
      simp
    · have hlt : e < s.dms.length := by
        have := (List.getElem?_eq_some_iff.1 hk).1
        simp at this
        omega
      rw [bump_other _ he]
      refine h.dm e k ?_
      simpa [List.getElem?_append_left hlt] using hk
  · simp only [List.length_append, List.length_cons, List.length_nil] at he
    rw [bump_other _ (by omega)]
    exact h.dmOut e (by omega)

/-- A `DM` without an IGA takes over a reference. -/
theorem Inv.giveD {hI hD : Nat → Nat} {s : State} {d i : Nat} {m : Dm} (h : Inv (bump hI i) hD s) (hm : s.dms[d]? = some m)
    (hf : m.freed = false) (hi : m.iga = none) : Inv hI hD (DMI.putD s d { m with iga := some i }) := by
  have hc : ∀ j : Nat, refsI (DMI.putD s d { m with iga := some i }) j = refsI s j + (if j = i then 1 else 0) := by
    intro j
    unfold refsI
    have := count_set (holdsD j) (b := { m with iga := some i }) hm
    rw [show (DMI.putD s d { m with iga := some i }).dms = s.dms.set d _ from rfl,
      show (DMI.putD s d { m with iga := some i }).objs = s.objs from rfl]
    have e0 : holdsD j m = false := by simp [holdsD, hi]
    have e1 : holdsD j { m with iga := some i } = decide (j = i) := by
      by_cases x : j = i
      · subst x; simp [holdsD, hf]
      · simp [holdsD, x, Ne.symm x]
    rw [e0, e1] at this
    by_cases e : j = i
    · simp only [e, decide_true, if_true, Bool.false_eq_true, if_false] at this ⊢
      omega
    · simp only [e, decide_false, Bool.false_eq_true, if_false] at this ⊢
      omega
  refine ⟨fun j k hk => ?_, fun j hj => ?_, fun e k hk => ?_, fun e he => ?_⟩
  · have := h.iga j k hk
    rw [hc]
    refine ⟨?_, this.2⟩
    rw [this.1]
    by_cases e : j = i
    · subst e; rw [bump_self]; simp; omega
    · rw [bump_other _ e]; simp [e]
  · have := h.igaOut j hj
    rw [hc]
    by_cases e : j = i
    · subst e; rw [bump_self] at this; omega
    · rw [bump_other _ e] at this; simp [e, this]
  · by_cases he : e = d
    · subst he
      rw [show (DMI.putD s e _).dms = s.dms.set e _ from rfl, get_set_self hm] at hk
      cases hk
      exact h.dm e m hm
    · rw [show (DMI.putD s d _).dms = s.dms.set d _ from rfl, get_set_other he] at hk
      exact h.dm e k hk
  · exact h.dmOut e (by simpa [DMI.putD] using he)

/-- A new object without a `DM` that takes over a reference to an IGA, or has none. -/
theorem Inv.newO {hI hD : Nat → Nat} {s : State} {b : Obj} (hf : b.freed = false) (hd : b.dm = none)
    (h : Inv (match b.iga with | none => hI | some i => bump hI i) hD s) :
    Inv hI hD { s with objs := s.objs ++ [b] } := by
  have hc : ∀ i : Nat, refsI { s with objs := s.objs ++ [b] } i = refsI s i + (if b.iga = some i then 1 else 0) := by
    intro i
    unfold refsI
    simp only [List.countP_append, List.countP_cons, List.countP_nil, holdsO, hf, Bool.not_false, Bool.true_and,
      decide_eq_true_eq]
    omega
  have hb : ∀ i : Nat, (match b.iga with | none => hI | some i => bump hI i) i = hI i + (if b.iga = some i then 1 else 0) := by
    intro i
    cases hi : b.iga with
    | none => simp
    | some j =>
      by_cases e : i = j
      · subst e; simp [bump_self]
      · simp [bump_other _ e, Ne.symm e]
  have hr : ∀ d : Nat, refsD { s with objs := s.objs ++ [b] } d = refsD s d := by
    intro d
    simp [refsD, attached, hd]
  refine ⟨fun j k hk => ?_, fun j hj => ?_, fun e k hk => ?_, fun e he => ?_⟩
  · have := h.iga j k hk
    rw [hc]
    refine ⟨?_, this.2⟩
    rw [this.1, hb]; congr 1; omega
  · have := h.igaOut j hj
    rw [hb] at this
    rw [hc]
    omega
  · rw [hr]; exact h.dm e k hk
  · rw [hr]; exact h.dmOut e he

/-- The order in which the object and the reference to its IGA are made does not matter. -/
theorem refI_objs {s s' : State} {i : Nat} {l : List Obj} (h : refI { s with objs := l } i = .done s') :
    ∃ s1, refI s i = .done s1 ∧ s' = { s1 with objs := l } := by
  unfold refI at h ⊢
  have e : liveI { s with objs := l } i = liveI s i := rfl
  rw [e] at h
  cases hl : liveI s i with
  | none => simp [hl] at h
  | some g =>
    simp only [hl, Out.done.injEq] at h ⊢
    exact ⟨_, rfl, h.symm⟩

/-- What holds after a call, whether it succeeds or fails. -/
def Sat (P : State → Prop) : Out → Prop
  | .done s => P s
  | .fail _ s => P s
  | .ub => True

theorem Sat.andThen {P Q : State → Prop} {x : Out} {f : State → Out} (h : Sat P x)
    (hd : ∀ s, x = .done s → P s → Sat Q (f s)) (hf : ∀ e s, x = .fail e s → P s → Q s) : Sat Q (x.andThen f) := by
  cases x with
  | done s => exact hd s rfl h
  | fail e s => exact hf e s rfl h
  | ub => trivial

theorem Sat.mono {P Q : State → Prop} {x : Out} (h : Sat P x) (hPQ : ∀ s, P s → Q s) : Sat Q x := by
  cases x with
  | done s => exact hPQ s h
  | fail e s => exact hPQ s h
  | ub => trivial

/-- The references owned by the program are the same. -/
def Keeps (s s' : State) : Prop := s'.heldI = s.heldI ∧ s'.heldD = s.heldD

theorem Keeps.rfl {s : State} : Keeps s s := ⟨Eq.refl _, Eq.refl _⟩
theorem Keeps.trans {a b c : State} (h : Keeps a b) (h' : Keeps b c) : Keeps a c :=
  ⟨h'.1.trans h.1, h'.2.trans h.2⟩

/-- The counters are right and the program's references the same. -/
def Fine (hI hD : Nat → Nat) (s s' : State) : Prop := Inv hI hD s' ∧ Keeps s s'

theorem refI_sat {hI hD : Nat → Nat} {s : State} (i : Nat) (h : Inv hI hD s) :
    Sat (Fine (bump hI i) hD s) (refI s i) := by
  cases hr : refI s i with
  | done s' =>
    refine ⟨h.refI hr, ?_⟩
    unfold refI at hr
    split at hr
    · exact absurd hr (by simp)
    · simp only [Out.done.injEq] at hr; subst hr; exact Keeps.rfl
  | fail e s' =>
    unfold refI at hr
    split at hr <;> exact absurd hr (by simp)
  | ub => trivial

theorem refI_not_fail {s s' : State} {i : Nat} {e : Err} : refI s i ≠ .fail e s' := by
  unfold refI; split <;> simp

theorem refD_not_fail {s s' : State} {i : Nat} {e : Err} : refD s i ≠ .fail e s' := by
  unfold refD; split <;> simp

theorem refD_sat {hI hD : Nat → Nat} {s : State} (d : Nat) (h : Inv hI hD s) :
    Sat (Fine hI (bump hD d) s) (refD s d) := by
  cases hr : refD s d with
  | done s' =>
    refine ⟨h.refD hr, ?_⟩
    unfold refD at hr
    split at hr
    · exact absurd hr (by simp)
    · simp only [Out.done.injEq] at hr; subst hr; exact Keeps.rfl
  | fail e s' => exact absurd hr refD_not_fail
  | ub => trivial

theorem destroyI_not_fail {s s' : State} {i : Nat} {e : Err} : destroyI s i ≠ .fail e s' := by
  unfold destroyI
  split
  · simp
  · split
    · simp
    · split <;> simp

theorem destroyI_keeps {s s' : State} {i : Nat} (h : destroyI s i = .done s') : Keeps s s' := by
  unfold destroyI at h
  split at h
  · exact absurd h (by simp)
  · split at h
    · simp only [Out.done.injEq] at h; subst h; exact Keeps.rfl
    · split at h
      · simp only [Out.done.injEq] at h; subst h; exact Keeps.rfl
      · exact absurd h (by simp)

theorem destroyI_sat {hI hD : Nat → Nat} {s : State} (i : Nat) (h : Inv (bump hI i) hD s) :
    Sat (Fine hI hD s) (destroyI s i) := by
  cases hr : destroyI s i with
  | done s' => exact ⟨h.destroyI hr, destroyI_keeps hr⟩
  | fail e s' => exact absurd hr destroyI_not_fail
  | ub => trivial

theorem destroyD_not_fail {s s' : State} {d : Nat} {e : Err} : destroyD s d ≠ .fail e s' := by
  unfold destroyD
  split
  · simp
  · split
    · simp
    · dsimp only
      split
      · simp
      · exact destroyI_not_fail

theorem destroyD_sat {hI hD : Nat → Nat} {s : State} (d : Nat) (h : Inv hI (bump hD d) s) :
    Sat (Fine hI hD s) (destroyD s d) := by
  cases hr : destroyD s d with
  | done s' =>
    refine ⟨h.destroyD hr, ?_⟩
    unfold destroyD at hr
    split at hr
    · exact absurd hr (by simp)
    · split at hr
      · simp only [Out.done.injEq] at hr; subst hr; exact Keeps.rfl
      · dsimp only at hr
        split at hr
        · simp only [Out.done.injEq] at hr; subst hr; exact Keeps.rfl
        · have := destroyI_keeps hr
          exact this
  | fail e s' => exact absurd hr destroyD_not_fail
  | ub => trivial

/-- Releasing an object leaves its two references to be given up. -/
theorem Inv.freeO {hI hD : Nat → Nat} {s : State} {o : Nat} {b : Obj} (h : Inv hI hD s) (hb : s.objs[o]? = some b)
    (hf : b.freed = false) :
    Inv (match b.iga with | none => hI | some i => bump hI i) (match b.dm with | none => hD | some d => bump hD d)
      { s with objs := s.objs.set o { b with freed := true } } := by
  have hc : ∀ i : Nat, refsI { s with objs := s.objs.set o { b with freed := true } } i +
      (if b.iga = some i then 1 else 0) = refsI s i := by
    intro i
    unfold refsI
    have := count_set (holdsO i) (b := { b with freed := true }) hb
    simp only [holdsO, hf, Bool.not_false, Bool.true_and, decide_eq_true_eq, Bool.not_true, Bool.false_and,
      Bool.false_eq_true, if_false] at this
    dsimp only
    omega
  have hr : ∀ d : Nat, refsD { s with objs := s.objs.set o { b with freed := true } } d +
      (if b.dm = some d then 1 else 0) = refsD s d := by
    intro d
    unfold refsD
    have := count_set (attached d) (b := { b with freed := true }) hb
    simp only [attached, hf, Bool.not_false, Bool.true_and, decide_eq_true_eq, Bool.not_true, Bool.false_and,
      Bool.false_eq_true, if_false] at this
    dsimp only
    omega
  have hx : ∀ (f : Nat → Nat) (x : Option Nat) (i : Nat), (match x with | none => f | some i => bump f i) i =
      f i + (if x = some i then 1 else 0) := by
    intro f x i
    cases x with
    | none => simp
    | some j =>
      by_cases e : i = j
      · subst e; simp [bump_self]
      · simp [bump_other _ e, Ne.symm e]
  refine ⟨fun j k hk => ?_, fun j hj => ?_, fun e k hk => ?_, fun e he => ?_⟩
  · have := h.iga j k hk
    have h2 := hc j
    refine ⟨?_, this.2⟩
    rw [this.1, hx]; congr 1; omega
  · have := h.igaOut j hj
    have h2 := hc j
    rw [hx]
    omega
  · have := h.dm e k hk
    have h2 := hr e
    refine ⟨?_, this.2⟩
    rw [this.1, hx]; congr 1; omega
  · have := h.dmOut e he
    have h2 := hr e
    rw [hx]
    omega

theorem destroyO_sat {hI hD : Nat → Nat} {s : State} (o : Nat) (h : Inv hI hD s) : Sat (Fine hI hD s) (destroyO s o) := by
  unfold destroyO
  cases hb : s.objs[o]? with
  | none => trivial
  | some b =>
    dsimp only
    split
    · trivial
    · rename_i hf
      have h1 := h.freeO hb (by simpa using hf)
      set s1 : State := { s with objs := s.objs.set o { b with freed := true } } with hs1
      have hk : Keeps s s1 := Keeps.rfl
      refine Sat.andThen (P := Fine (match b.iga with | none => hI | some i => bump hI i) hD s1) ?_ ?_ ?_
      · cases hd : b.dm with
        | none => rw [hd] at h1; exact ⟨h1, Keeps.rfl⟩
        | some d => rw [hd] at h1; exact destroyD_sat d h1
      · intro s2 _ h2
        cases hi : b.iga with
        | none => rw [hi] at h2; exact ⟨h2.1, hk.trans h2.2⟩
        | some i =>
          rw [hi] at h2
          exact (destroyI_sat i h2.1).mono fun s3 h3 => ⟨h3.1, (hk.trans h2.2).trans h3.2⟩
      · intro e s2 hx
        exfalso
        cases hd : b.dm with
        | none => simp [hd] at hx
        | some d => rw [hd] at hx; exact destroyD_not_fail hx

theorem setUpI_sat {hI hD : Nat → Nat} {s : State} (i : Nat) (lib : Bool) (h : Inv hI hD s) :
    Sat (Fine hI hD s) (setUpI s i lib) := by
  unfold setUpI
  cases hl : liveI s i with
  | none => trivial
  | some g =>
    obtain ⟨hg, _⟩ := liveI_eq hl
    dsimp only
    split
    · exact ⟨h, Keeps.rfl⟩
    · split
      · exact ⟨h, Keeps.rfl⟩
      · have := h.putI (g' := { g with
                setup := true
                dof := max g.dof 1
                vtype := defaultName g.vtype "standard"
                mtype := defaultName g.mtype (if 1 < g.dof then "baij" else "aij")
                map := some s.next }) hg rfl rfl
        exact ⟨⟨this.iga, this.igaOut, this.dm, this.dmOut⟩, Keeps.rfl⟩

theorem loadI_sat {hI hD : Nat → Nat} {s : State} (i dim nsd : Nat) (lib : Bool) (h : Inv hI hD s) :
    Sat (Fine hI hD s) (loadI s i dim nsd lib) := by
  unfold loadI
  cases hl : liveI s i with
  | none => trivial
  | some g =>
    obtain ⟨hg, _⟩ := liveI_eq hl
    exact setUpI_sat i lib (h.putI (g' := { g with setup := false, map := none, dim := dim, nsd := nsd }) hg rfl rfl)

theorem createI_sat {hI hD : Nat → Nat} {s : State} (i : Nat) (k : Kind) (lib : Bool) (h : Inv hI hD s) :
    Sat (Fine hI hD s) (createI s i k lib) := by
  unfold createI
  cases hl : liveI s i with
  | none => trivial
  | some g =>
    obtain ⟨hg, hf⟩ := liveI_eq hl
    dsimp only
    split
    · exact ⟨h, Keeps.rfl⟩
    · split
      · trivial
      · split
        · exact ⟨h, Keeps.rfl⟩
        · rename_i t _ _
          by_cases hk : k = .local
          · simp only [hk, if_true]
            exact ⟨Inv.newO rfl rfl h, Keeps.rfl⟩
          · simp only [hk, if_false]
            obtain ⟨b, hb⟩ : ∃ b : Obj, b = { freed := false, kind := k, type := t, bs := g.dof, iga := some i, dm := none } :=
              ⟨_, rfl⟩
            rw [← hb]
            cases hr : refI { s with objs := s.objs ++ [b] } i with
            | ub => trivial
            | fail e s' => exact absurd hr refI_not_fail
            | done s' =>
              obtain ⟨s1, h1, rfl⟩ := refI_objs hr
              have h2 := h.refI h1
              have hk' := refI_sat i h
              rw [h1] at hk'
              have ho : s.objs = s1.objs := by
                unfold refI at h1
                split at h1
                · exact absurd h1 (by simp)
                · simp only [Out.done.injEq] at h1; subst h1; rfl
              rw [ho]
              refine ⟨Inv.newO (b := b) (by rw [hb]) (by rw [hb]) ?_, hk'.2⟩
              rw [hb]
              exact h2

/-- Counting when the last entry is replaced. -/
theorem count_last {α : Type} (p : α → Bool) {l : List α} {a b : α} (h : l.getLast? = some a) :
    (l.dropLast ++ [b]).countP p + (if p a then 1 else 0) = l.countP p + (if p b then 1 else 0) := by
  obtain ⟨l', rfl⟩ := List.getLast?_eq_some_iff.1 h
  simp only [List.dropLast_concat, List.countP_append, List.countP_cons, List.countP_nil]
  omega

theorem attach_sat {hI hD : Nat → Nat} {s : State} (d : Nat) (h : Inv hI hD s)
    (hlast : ∃ b, s.objs.getLast? = some b ∧ b.freed = false ∧ b.dm = none) : Sat (Fine hI hD s) (attach s d) := by
  obtain ⟨b, hb, hf, hd⟩ := hlast
  unfold attach
  rw [hb]
  dsimp only
  cases hr : refD { s with objs := s.objs.dropLast ++ [{ b with dm := some d }] } d with
  | ub => trivial
  | fail e s' => exact absurd hr refD_not_fail
  | done s' =>
    have h1 : ∃ s1, refD s d = .done s1 ∧ s' = { s1 with objs := s.objs.dropLast ++ [{ b with dm := some d }] } := by
      unfold refD at hr ⊢
      have e : liveD { s with objs := s.objs.dropLast ++ [{ b with dm := some d }] } d = liveD s d := rfl
      rw [e] at hr
      cases hl : liveD s d with
      | none => simp [hl] at hr
      | some g =>
        simp only [hl, Out.done.injEq] at hr ⊢
        exact ⟨_, rfl, hr.symm⟩
    obtain ⟨s1, h1, rfl⟩ := h1
    have h2 := h.refD h1
    have hk := refD_sat d h
    rw [h1] at hk
    have ho : s1.objs = s.objs := by
      unfold refD at h1
      split at h1
      · exact absurd h1 (by simp)
      · simp only [Out.done.injEq] at h1; subst h1; rfl
    refine ⟨?_, hk.2⟩
    have hc : ∀ i : Nat, refsI { s1 with objs := s.objs.dropLast ++ [{ b with dm := some d }] } i = refsI s1 i := by
      intro i
      unfold refsI
      have := count_last (holdsO i) (b := { b with dm := some d }) hb
      have e : holdsO i { b with dm := some d } = holdsO i b := rfl
      rw [e] at this
      rw [ho]
      dsimp only
      omega
    have hr' : ∀ e : Nat, refsD { s1 with objs := s.objs.dropLast ++ [{ b with dm := some d }] } e =
        refsD s1 e + (if e = d then 1 else 0) := by
      intro e
      unfold refsD
      have := count_last (attached e) (b := { b with dm := some d }) hb
      have e0 : attached e b = false := by simp [attached, hd]
      have e1 : attached e { b with dm := some d } = decide (e = d) := by
        by_cases x : e = d
        · subst x; simp [attached, hf]
        · simp [attached, x, Ne.symm x]
      rw [e0, e1] at this
      rw [ho]
      dsimp only
      by_cases x : e = d
      · simp only [x, decide_true, if_true, Bool.false_eq_true, if_false] at this ⊢
        omega
      · simp only [x, decide_false, Bool.false_eq_true, if_false] at this ⊢
        omega
    refine ⟨fun j k hk => ?_, fun j hj => ?_, fun e k hk => ?_, fun e he => ?_⟩
    · rw [hc]; exact h2.iga j k hk
    · rw [hc]; exact h2.igaOut j hj
    · have := h2.dm e k hk
      rw [hr']
      refine ⟨?_, this.2⟩
      rw [this.1]
      by_cases x : e = d
      · subst x; rw [bump_self]; simp; omega
      · rw [bump_other _ x]; simp [x]
    · have := h2.dmOut e he
      rw [hr']
      by_cases x : e = d
      · subst x; rw [bump_self] at this; omega
      · rw [bump_other _ x] at this; simp [x, this]

/-- The newest object after `createI`. -/
theorem createI_last {s s' : State} {i : Nat} {k : Kind} {lib : Bool} (h : createI s i k lib = .done s') :
    ∃ (b : Obj) (g : Iga) (t : String), liveI s i = some g ∧ readName s (nameOf g k) = some t ∧ g.setup = true ∧
      s'.objs = s.objs ++ [b] ∧
      b = { freed := false, kind := k, type := t, bs := g.dof, iga := if k = .local then none else some i, dm := none } ∧
      (s'.igas = if k = .local then s.igas else s.igas.set i { g with refct := g.refct + 1 }) ∧
      s'.dms = s.dms ∧ s'.next = s.next := by
  unfold createI at h
  cases hl : liveI s i with
  | none => simp [hl] at h
  | some g =>
    simp only [hl] at h
    split at h
    · exact absurd h (by simp)
    · rename_i hset
      cases ht : readName s (nameOf g k) with
      | none => simp [ht] at h
      | some t =>
        simp only [ht] at h
        split at h
        · exact absurd h (by simp)
        · refine ⟨{ freed := false, kind := k, type := t, bs := g.dof, iga := if k = .local then none else some i, dm := none },
            g, t, rfl, ht, by simpa using hset, ?_⟩
          by_cases hk : k = .local
          · simp only [hk, if_true, Out.done.injEq] at h
            subst h
            simp [hk]
          · simp only [hk, if_false] at h
            obtain ⟨s1, h1, rfl⟩ := refI_objs h
            unfold refI at h1
            simp only [hl, Out.done.injEq] at h1
            subst h1
            simp [hk, putI]

theorem createD_sat {hI hD : Nat → Nat} {s : State} (d : Nat) (k : Kind) (lib : Bool) (h : Inv hI hD s) :
    Sat (Fine hI hD s) (createD s d k lib) := by
  have hname : ∀ (g : Iga) (n : Option Name), (withName g k n).refct = g.refct ∧ (withName g k n).freed = g.freed := by
    intro g n; cases k <;> exact ⟨rfl, rfl⟩
  unfold createD
  cases hl : liveD s d with
  | none => trivial
  | some m =>
    dsimp only
    cases hi : m.iga with
    | none => trivial
    | some i =>
      dsimp only
      cases hg : liveI s i with
      | none => trivial
      | some g =>
        dsimp only
        refine Sat.andThen (P := Fine hI hD s) ?_ ?_ (fun _ _ _ h => h)
        · unfold lend
          split
          · exact ⟨h, Keeps.rfl⟩
          · rw [hg]
            exact ⟨h.putI (liveI_eq hg).1 (hname _ _).1 (hname _ _).2, Keeps.rfl⟩
        · intro s1 _ h1
          refine Sat.andThen (P := Fine hI hD s)
            ((createI_sat i k lib h1.1).mono fun s2 h2 => ⟨h2.1, h1.2.trans h2.2⟩) ?_ (fun _ _ _ h => h)
          intro s2 hs2 h2
          obtain ⟨b, g2, t2, _, _, _, hob, hbb, _⟩ := createI_last hs2
          refine Sat.andThen (P := fun s3 => Fine hI hD s s3 ∧ s3.objs = s2.objs) ?_ ?_ (fun _ _ _ h => h.1)
          · unfold restore
            split
            · exact ⟨h2, rfl⟩
            · cases hl3 : liveI s2 i with
              | none => trivial
              | some g3 =>
                exact ⟨⟨h2.1.putI (liveI_eq hl3).1 (hname _ _).1 (hname _ _).2, h2.2⟩, rfl⟩
          · intro s3 _ h3
            refine (attach_sat d h3.1.1 ⟨b, ?_, ?_, ?_⟩).mono fun s4 h4 => ⟨h4.1, h3.1.2.trans h4.2⟩
            · rw [h3.2, hob]; simp
            · rw [hbb]
            · rw [hbb]

theorem ensureIga_sat {hI hD : Nat → Nat} {s : State} (d dof dim : Nat) (v m : Option String) (lib : Bool) (h : Inv hI hD s) :
    Sat (Fine hI hD s) (ensureIga s d dof dim v m lib) := by
  unfold ensureIga
  cases hl : liveD s d with
  | none => trivial
  | some dm =>
    dsimp only
    cases hi : dm.iga with
    | some i => exact ⟨h, Keeps.rfl⟩
    | none =>
      dsimp only
      split
      · exact ⟨h, Keeps.rfl⟩
      · have h1 := h.newI (newIga dof dim 0 v m) rfl rfl
        exact ⟨Inv.giveD h1 (liveD_eq hl).1 (liveD_eq hl).2 hi, Keeps.rfl⟩

theorem copyFrom_sat {hI hD : Nat → Nat} {s : State} (d : Nat) (lib : Bool) (h : Inv hI hD s) :
    Sat (Fine hI hD s) (copyFrom s d lib) := by
  unfold copyFrom
  cases hl : liveD s d with
  | none => trivial
  | some m =>
    dsimp only
    cases hi : m.iga with
    | none => trivial
    | some i =>
      dsimp only
      refine Sat.andThen (setUpI_sat i lib h) ?_ (fun _ _ _ h => h)
      intro s1 hs1 h1
      cases hg : liveI s1 i with
      | none => trivial
      | some g =>
        dsimp only
        split
        · refine ⟨h1.1.putD (m := m) ?_ rfl rfl ?_, h1.2⟩
          · have : s1.dms = s.dms := by
              unfold setUpI at hs1
              split at hs1
              · exact absurd hs1 (by simp)
              · split at hs1
                · simp only [Out.done.injEq] at hs1; subst hs1; rfl
                · split at hs1
                  · exact absurd hs1 (by simp)
                  · simp only [Out.done.injEq] at hs1; subst hs1; rfl
            rw [this]
            exact (liveD_eq hl).1
          · first | rfl | exact hi.symm
        · trivial

theorem markSetUp_sat {hI hD : Nat → Nat} {s : State} (d : Nat) (h : Inv hI hD s) : Sat (Fine hI hD s) (markSetUp s d) := by
  unfold markSetUp
  cases hl : liveD s d with
  | none => trivial
  | some m => exact ⟨h.putD (liveD_eq hl).1 rfl rfl rfl, Keeps.rfl⟩

theorem Sat.seq {hI hD : Nat → Nat} {s : State} {x : Out} {f : State → Out} (h : Sat (Fine hI hD s) x)
    (hf : ∀ s1, x = .done s1 → Inv hI hD s1 → Sat (Fine hI hD s1) (f s1)) : Sat (Fine hI hD s) (x.andThen f) :=
  Sat.andThen h (fun s1 e h1 => (hf s1 e h1.1).mono fun _ h2 => ⟨h2.1, h1.2.trans h2.2⟩) (fun _ _ _ h => h)

theorem setUpD_sat {hI hD : Nat → Nat} {s : State} (d dof dim : Nat) (v m : Option String) (lib : Bool) (h : Inv hI hD s) :
    Sat (Fine hI hD s) (setUpD s d dof dim v m lib) := by
  unfold setUpD
  cases hl : liveD s d with
  | none => trivial
  | some dm =>
    dsimp only
    split
    · exact ⟨h, Keeps.rfl⟩
    · exact (ensureIga_sat d dof dim v m lib h).seq fun s1 _ h1 => (copyFrom_sat d lib h1).seq fun s2 _ h2 => markSetUp_sat d h2

theorem loadD_sat {hI hD : Nat → Nat} {s : State} (d dof dim nsd : Nat) (v m : Option String) (lib : Bool) (h : Inv hI hD s) :
    Sat (Fine hI hD s) (loadD s d dof dim nsd v m lib) := by
  unfold loadD
  refine (ensureIga_sat d dof dim v m lib h).seq fun s1 _ h1 => ?_
  cases hl : liveD s1 d with
  | none => trivial
  | some dm =>
    dsimp only
    cases hi : dm.iga with
    | none => trivial
    | some i =>
      dsimp only
      refine (loadI_sat i dim nsd lib h1).seq fun s2 _ h2 => ?_
      split
      · exact copyFrom_sat d lib h2
      · exact (copyFrom_sat d lib h2).seq fun s3 _ h3 => markSetUp_sat d h3

theorem setIga_sat {hI hD : Nat → Nat} {s : State} (d i : Nat) (h : Inv hI hD s) : Sat (Fine hI hD s) (setIga s d i) := by
  unfold setIga
  cases hl : liveD s d with
  | none => trivial
  | some m =>
    dsimp only
    cases hg : liveI s i with
    | none => trivial
    | some g =>
      dsimp only
      cases hi : m.iga with
      | some j =>
        dsimp only
        split
        · refine Sat.andThen (refI_sat i h) (fun s1 _ h1 => ?_) (fun e s1 hx => absurd hx refI_not_fail)
          exact (destroyI_sat i h1.1).mono fun s2 h2 => ⟨h2.1, h1.2.trans h2.2⟩
        · exact ⟨h, Keeps.rfl⟩
      | none =>
        refine Sat.andThen (refI_sat i h) (fun s1 hs1 h1 => ?_) (fun e s1 hx => absurd hx refI_not_fail)
        have : s1.dms = s.dms := by
          unfold refI at hs1
          split at hs1
          · exact absurd hs1 (by simp)
          · simp only [Out.done.injEq] at hs1; subst hs1; rfl
        exact ⟨h1.1.giveD (by rw [this]; exact (liveD_eq hl).1) (liveD_eq hl).2 hi, h1.2⟩

theorem set_same {α : Type} {l : List α} {i : Nat} {a : α} (h : l[i]? = some a) : l.set i a = l := by
  apply List.ext_getElem?
  intro j
  by_cases e : j = i
  · subst e; rw [get_set_self h, h]
  · rw [get_set_other e]

/-- The number of references that the program owns is what the model keeps. -/
def Good (s : State) : Prop := Inv s.heldI s.heldD s

theorem Fine.good {s s' : State} (h : Fine s.heldI s.heldD s s') : Good s' := by
  unfold Good
  rw [h.2.1, h.2.2]
  exact h.1

theorem Inv.live {hI hD : Nat → Nat} {s : State} (h : Inv hI hD s) {d i : Nat} {m : Dm} (hm : liveD s d = some m) (hi : m.iga = some i) :
    ∃ g, liveI s i = some g := by
  obtain ⟨hm, hf⟩ := liveD_eq hm
  have hpos : 0 < refsI s i := by
    unfold refsI
    have : 0 < s.dms.countP (holdsD i) := List.countP_pos_iff.2 ⟨m, List.mem_of_getElem? hm, by simp [holdsD, hf, hi]⟩
    omega
  have hlt : i < s.igas.length := by
    by_contra hn
    have := (h.igaOut i (by omega)).2
    omega
  obtain ⟨g, hg⟩ : ∃ g, s.igas[i]? = some g := ⟨_, List.getElem?_eq_getElem hlt⟩
  have h0 := h.iga i g hg
  refine ⟨g, liveI_of hg ?_⟩
  by_contra hn
  have := h0.2.1 (by simpa using hn)
  omega

theorem createFrom_sat {hI : Nat → Nat} {s : State} (i : Nat) (lib : Bool) (h : Inv hI s.heldD s) :
    Sat (fun s' => Inv hI s'.heldD s' ∧ s'.heldI = s.heldI) (createFrom s i lib) := by
  unfold createFrom
  dsimp only
  refine Sat.andThen (refI_sat i h) (fun s1 _ h1 => ?_) (fun e s1 hx => absurd hx refI_not_fail)
  have h2 : Inv hI (allocD s1 (some i)).heldD (allocD s1 (some i)) := by
    have h3 : Inv hI (bump s.heldD s1.dms.length) { s1 with dms := s1.dms ++ [newDm (some i)] } :=
      Inv.newD rfl rfl h1.1
    have e : (allocD s1 (some i)).heldD = bump s.heldD s1.dms.length := by
      show bump s1.heldD s1.dms.length = _
      rw [h1.2.2]
    rw [e]
    exact ⟨h3.iga, h3.igaOut, h3.dm, h3.dmOut⟩
  have e1 : (allocD s1 (some i)).heldI = s.heldI := h1.2.1
  cases hl : liveI (allocD s1 (some i)) i with
  | none => trivial
  | some g =>
    dsimp only
    split
    · exact (setUpD_sat _ 0 0 none none lib h2).mono fun s2 h3 => ⟨by rw [h3.2.2]; exact h3.1, by rw [h3.2.1, e1]⟩
    · exact ⟨h2, e1⟩

theorem setUpI_done {s : State} {i : Nat} {g : Iga} (hl : liveI s i = some g) (hs : g.setup = true) (lib : Bool) :
    setUpI s i lib = .done s := by
  unfold setUpI
  simp [hl, hs]

/-- What `DMIGACreate` makes of an IGA that is set up. -/
theorem createFrom_done {s : State} {i : Nat} {g : Iga} {v t : String} (hl : liveI s i = some g) (hs : g.setup = true)
    (hv : g.vtype = some ⟨v, none⟩) (ht : g.mtype = some ⟨t, none⟩) (lib : Bool) :
    createFrom s i lib = .done { s with
      igas := s.igas.set i { g with refct := g.refct + 1 }
      dms := s.dms ++ [{ refct := 1, freed := false, iga := some i, called := true, bs := g.dof, dim := g.dim,
                         cdim := if 1 ≤ g.nsd then g.nsd else g.dim, map := g.map, vtype := some v, mtype := some t }]
      heldD := bump s.heldD s.dms.length } := by
  obtain ⟨hg, hf⟩ := liveI_eq hl
  obtain ⟨g1, hg1⟩ : ∃ g1 : Iga, g1 = { g with refct := g.refct + 1 } := ⟨_, rfl⟩
  have hr : refI s i = .done (putI s i g1) := by unfold refI; rw [hl, hg1]
  have hset : (s.igas.set i g1)[i]? = some g1 := get_set_self hg
  have hd : ∀ m : Dm, m.freed = false → liveD { s with igas := s.igas.set i g1, dms := s.dms ++ [m], heldD := bump s.heldD s.dms.length } s.dms.length = some m := by
    intro m hm
    simp [liveD, hm]
  have hli : ∀ m : Dm, liveI { s with igas := s.igas.set i g1, dms := s.dms ++ [m], heldD := bump s.heldD s.dms.length } i = some g1 := by
    intro m
    exact liveI_of hset (by rw [hg1]; exact hf)
  have hsl : ∀ (l : List Dm) (a b : Dm), (l ++ [a]).set l.length b = l ++ [b] := by
    intro l a b
    simp
  have ha : allocD (putI s i g1) (some i) =
      { s with igas := s.igas.set i g1, dms := s.dms ++ [newDm (some i)], heldD := bump s.heldD s.dms.length } := rfl
  have hs1 : g1.setup = true := by rw [hg1]; exact hs
  unfold createFrom
  rw [hr]
  simp only [Out.andThen]
  rw [ha, hli]
  simp only [hs1, if_true]
  unfold setUpD
  rw [hd _ rfl]
  simp only [show (newDm (some i)).called = false from rfl, Bool.false_eq_true, if_false]
  unfold ensureIga
  rw [hd _ rfl]
  simp only [show (newDm (some i)).iga = some i from rfl, Out.andThen]
  unfold copyFrom
  rw [hd _ rfl]
  simp only [show (newDm (some i)).iga = some i from rfl]
  rw [setUpI_done (hli _) hs1]
  simp only [Out.andThen]
  rw [hli]
  have e1 : g1.vtype = some ⟨v, none⟩ := by rw [hg1]; exact hv
  have e2 : g1.mtype = some ⟨t, none⟩ := by rw [hg1]; exact ht
  simp only [e1, e2, readName, putD, hsl]
  unfold markSetUp
  rw [hd _ rfl]
  simp only [putD, hsl, hg1, newDm]

theorem deriveD_sat {s : State} (d : Nat) (w : Derived) (lib : Bool) (h : Good s) : Sat Good (deriveD s d w lib) := by
  unfold deriveD
  cases hl : liveD s d with
  | none => trivial
  | some m =>
    dsimp only
    cases hi : m.iga with
    | none => trivial
    | some i =>
      dsimp only
      cases hg : liveI s i with
      | none => trivial
      | some g =>
        dsimp only
        unfold cloneI
        rw [hg]
        dsimp only
        split
        · exact h
        · split
          · exact h
          · simp only [Out.andThen]
            obtain ⟨n, hn⟩ : ∃ n, n = (if 0 < w.dof g then w.dof g else g.dof) := ⟨_, rfl⟩
            rw [← hn]
            obtain ⟨gn, hgn⟩ : ∃ gn : Iga, gn = { newIga n g.dim g.nsd (some "standard")
              (some (if 1 < n then "baij" else "aij")) with setup := true, map := some s.next } := ⟨_, rfl⟩
            rw [← hgn]
            have h1 : Inv (bump s.heldI s.igas.length) s.heldD { s with igas := s.igas ++ [gn], next := s.next + 1 } := by
              have := Inv.newI h gn (by rw [hgn]; rfl) (by rw [hgn]; rfl)
              exact ⟨this.iga, this.igaOut, this.dm, this.dmOut⟩
            obtain ⟨sn, hsn⟩ : ∃ sn : State, sn = { s with igas := s.igas ++ [gn], next := s.next + 1 } := ⟨_, rfl⟩
            rw [← hsn] at h1 ⊢
            have hln : liveI sn s.igas.length = some gn := by
              rw [hsn]
              refine liveI_of (by simp) (by rw [hgn]; rfl)
            have hcf := createFrom_done (v := "standard") (t := if 1 < n then "baij" else "aij") hln (by rw [hgn])
              (by rw [hgn]; rfl) (by rw [hgn]; rfl) lib
            have hsat := createFrom_sat (hI := bump s.heldI s.igas.length) s.igas.length lib
              (by have : sn.heldD = s.heldD := by rw [hsn]
                  rw [this]; exact h1)
            cases hx : createFrom sn s.igas.length lib with
            | ub => trivial
            | fail e s2 => rw [hx] at hcf; exact absurd hcf (by simp)
            | done s2 =>
              rw [hx] at hsat
              dsimp only
              have h2 := hsat.1
              refine (destroyI_sat s.igas.length h2).mono fun s3 h3 => ?_
              unfold Good
              have e1 : s3.heldI = s.heldI := by rw [h3.2.1, hsat.2, hsn]
              rw [e1, h3.2.2]
              exact h3.1

theorem heldI_live {hI hD : Nat → Nat} {s : State} (h : Inv hI hD s) {i : Nat} (hp : hI i ≠ 0) : ∃ g, liveI s i = some g := by
  have hlt : i < s.igas.length := by
    by_contra hn
    exact hp (h.igaOut i (by omega)).1
  obtain ⟨g, hg⟩ : ∃ g, s.igas[i]? = some g := ⟨_, List.getElem?_eq_getElem hlt⟩
  have h0 := h.iga i g hg
  refine ⟨g, liveI_of hg ?_⟩
  by_contra hn
  have := h0.2.1 (by simpa using hn)
  omega

theorem heldD_live {hI hD : Nat → Nat} {s : State} (h : Inv hI hD s) {d : Nat} (hp : hD d ≠ 0) : ∃ m, liveD s d = some m := by
  have hlt : d < s.dms.length := by
    by_contra hn
    exact hp (h.dmOut d (by omega)).1
  obtain ⟨g, hg⟩ : ∃ g, s.dms[d]? = some g := ⟨_, List.getElem?_eq_getElem hlt⟩
  have h0 := h.dm d g hg
  refine ⟨g, liveD_of hg ?_⟩
  by_contra hn
  have := h0.2.1 (by simpa using hn)
  omega

/-- One call keeps the counters right, also if it fails. -/
theorem step_good {s : State} (h : Good s) (op : Op) : Sat Good (step s op) := by
  cases op with
  | igaCreate dof dim nsd =>
    have := Inv.newI h (newIga dof dim nsd none none) rfl rfl
    exact ⟨this.iga, this.igaOut, this.dm, this.dmOut⟩
  | igaSetUp i lib => exact (setUpI_sat i lib h).mono fun _ h => h.good
  | igaLoad i dim nsd lib => exact (loadI_sat i dim nsd lib h).mono fun _ h => h.good
  | igaSetVecType i t =>
    show Sat Good (setVecTypeI s i t)
    unfold setVecTypeI
    cases hl : liveI s i with
    | none => trivial
    | some g =>
      dsimp only
      split
      · exact Inv.putI h (liveI_eq hl).1 rfl rfl
      · trivial
  | igaSetMatType i t =>
    show Sat Good (setMatTypeI s i t)
    unfold setMatTypeI
    cases hl : liveI s i with
    | none => trivial
    | some g =>
      dsimp only
      split
      · exact Inv.putI h (liveI_eq hl).1 rfl rfl
      · trivial
  | igaMake i k lib => exact (createI_sat i k lib h).mono fun _ h => h.good
  | igaReference i =>
    refine Sat.andThen (refI_sat i h) (fun s1 _ h1 => ?_) (fun e s1 hx => absurd hx refI_not_fail)
    show Inv (bump s1.heldI i) s1.heldD _
    rw [h1.2.1, h1.2.2]
    exact ⟨h1.1.iga, h1.1.igaOut, h1.1.dm, h1.1.dmOut⟩
  | igaDestroy i =>
    show Sat Good (if s.heldI i = 0 then Out.ub else destroyI { s with heldI := drop s.heldI i } i)
    split
    · trivial
    · rename_i hp
      have h1 : Inv (bump (drop s.heldI i) i) s.heldD { s with heldI := drop s.heldI i } := by
        rw [bump_drop hp]; exact ⟨h.iga, h.igaOut, h.dm, h.dmOut⟩
      exact (destroyI_sat i h1).mono fun s2 h2 => by
        unfold Good
        rw [h2.2.1, h2.2.2]
        exact h2.1
  | dmNew =>
    have : Inv s.heldI (bump s.heldD s.dms.length) { s with dms := s.dms ++ [newDm none] } := Inv.newD rfl rfl h
    exact ⟨this.iga, this.igaOut, this.dm, this.dmOut⟩
  | dmCreate i lib =>
    exact (createFrom_sat i lib h).mono fun s1 h1 => by
      unfold Good
      rw [h1.2]
      exact h1.1
  | dmSetIga d i => exact (setIga_sat d i h).mono fun _ h => h.good
  | dmSetVecType d t =>
    show Sat Good (match liveD s d with | none => Out.ub | some m => .done (putD s d { m with vtype := some t }))
    cases hl : liveD s d with
    | none => trivial
    | some m => exact Inv.putD h (liveD_eq hl).1 rfl rfl rfl
  | dmSetMatType d t =>
    show Sat Good (match liveD s d with | none => Out.ub | some m => .done (putD s d { m with mtype := some t }))
    cases hl : liveD s d with
    | none => trivial
    | some m => exact Inv.putD h (liveD_eq hl).1 rfl rfl rfl
  | dmSetUp d dof dim v m lib => exact (setUpD_sat d dof dim v m lib h).mono fun _ h => h.good
  | dmLoad d dof dim nsd v m lib => exact (loadD_sat d dof dim nsd v m lib h).mono fun _ h => h.good
  | dmMake d k lib => exact (createD_sat d k lib h).mono fun _ h => h.good
  | dmDerive d w lib => exact deriveD_sat d w lib h
  | dmReference d =>
    refine Sat.andThen (refD_sat d h) (fun s1 _ h1 => ?_) (fun e s1 hx => absurd hx refD_not_fail)
    show Inv s1.heldI (bump s1.heldD d) _
    rw [h1.2.1, h1.2.2]
    exact ⟨h1.1.iga, h1.1.igaOut, h1.1.dm, h1.1.dmOut⟩
  | dmDestroy d =>
    show Sat Good (if s.heldD d = 0 then Out.ub else destroyD { s with heldD := drop s.heldD d } d)
    split
    · trivial
    · rename_i hp
      have h1 : Inv s.heldI (bump (drop s.heldD d) d) { s with heldD := drop s.heldD d } := by
        rw [bump_drop hp]; exact ⟨h.iga, h.igaOut, h.dm, h.dmOut⟩
      exact (destroyD_sat d h1).mono fun s2 h2 => by
        unfold Good
        rw [h2.2.1, h2.2.2]
        exact h2.1
  | destroy o => exact (destroyO_sat o h).mono fun _ h => h.good

theorem run_good {s s' : State} (h : Good s) {ops : List Op} (hr : run s ops = some s') : Good s' := by
  induction ops generalizing s with
  | nil => simp only [run, Option.some.injEq] at hr; exact hr ▸ h
  | cons op ops ih =>
    have hs := step_good h op
    unfold run at hr
    cases hx : step s op with
    | done s1 => rw [hx] at hs hr; exact ih hs hr
    | fail e s1 => rw [hx] at hs hr; exact ih hs hr
    | ub => rw [hx] at hr; exact absurd hr (by simp)

/-! ### No undefined behaviour -/

/-- The IGA's type strings are its own, and exist once it is set up. -/
structure Names (g : Iga) : Prop where
  v : ∀ n, g.vtype = some n → n.lender = none
  m : ∀ n, g.mtype = some n → n.lender = none
  set : g.setup = true → g.vtype ≠ none ∧ g.mtype ≠ none

/-- No IGA uses the memory of a `DM`. -/
def Sane (s : State) : Prop := ∀ (i : Nat) (g : Iga), s.igas[i]? = some g → Names g

/-- The behaviour is defined and `P` holds afterwards. -/
def Ok (P : State → Prop) : Out → Prop
  | .done s => P s
  | .fail _ s => P s
  | .ub => False

theorem Ok.andThen {P Q : State → Prop} {x : Out} {f : State → Out} (h : Ok P x) (hd : ∀ s, x = .done s → P s → Ok Q (f s))
    (hf : ∀ s, P s → Q s) : Ok Q (x.andThen f) := by
  cases x with
  | done s => exact hd s rfl h
  | fail e s => exact hf s h
  | ub => exact h

theorem Ok.mono {P Q : State → Prop} {x : Out} (h : Ok P x) (hPQ : ∀ s, P s → Q s) : Ok Q x := by
  cases x with
  | done s => exact hPQ s h
  | fail e s => exact hPQ s h
  | ub => exact h

theorem Ok.and {P Q : State → Prop} {x : Out} (h : Sat P x) (h' : Ok Q x) : Ok (fun s => P s ∧ Q s) x := by
  cases x with
  | done s => exact ⟨h, h'⟩
  | fail e s => exact ⟨h, h'⟩
  | ub => exact h'

theorem Sane.putI {s : State} (h : Sane s) {i : Nat} {g : Iga} (hg : Names g) : Sane (putI s i g) := by
  intro j k hk
  by_cases e : j = i
  · subst e
    have hlt : j < s.igas.length := by
      have := (List.getElem?_eq_some_iff.1 hk).1
      simpa [DMI.putI] using this
    rw [show (DMI.putI s j g).igas = s.igas.set j g from rfl, get_set_self (List.getElem?_eq_getElem hlt)] at hk
    cases hk
    exact hg
  · rw [show (DMI.putI s i g).igas = s.igas.set i g from rfl, get_set_other e] at hk
    exact h j k hk

theorem Names.own {g : Iga} (h : Names g) : ownName g.vtype = true ∧ ownName g.mtype = true := by
  constructor
  · cases hv : g.vtype with
    | none => rfl
    | some n =>
      have := h.v n hv
      cases n with | mk t l => simp only at this; subst this; rfl
  · cases hv : g.mtype with
    | none => rfl
    | some n =>
      have := h.m n hv
      cases n with | mk t l => simp only at this; subst this; rfl

theorem Names.read {g : Iga} (h : Names g) (hs : g.setup = true) (s : State) :
    ∃ v t, g.vtype = some ⟨v, none⟩ ∧ g.mtype = some ⟨t, none⟩ ∧ readName s g.vtype = some v ∧ readName s g.mtype = some t := by
  obtain ⟨hv, hm⟩ := h.set hs
  cases ev : g.vtype with
  | none => exact absurd ev hv
  | some n =>
    cases em : g.mtype with
    | none => exact absurd em hm
    | some n' =>
      have h1 := h.v n ev
      have h2 := h.m n' em
      cases n with | mk t l =>
      cases n' with | mk t' l' =>
      simp only at h1 h2
      subst h1 h2
      exact ⟨t, t', rfl, rfl, rfl, rfl⟩

theorem destroyI_ok {s : State} {i : Nat} (h : Sane s) (hl : ∃ g, liveI s i = some g) : Ok Sane (destroyI s i) := by
  obtain ⟨g, hl⟩ := hl
  have hn := h i g (liveI_eq hl).1
  unfold destroyI
  rw [hl]
  dsimp only
  split
  · exact h.putI ⟨hn.v, hn.m, hn.set⟩
  · rw [hn.own.1, hn.own.2]
    exact h.putI ⟨hn.v, hn.m, hn.set⟩

theorem destroyD_ok {s : State} {d : Nat} (h : Sane s) {m : Dm} (hl : liveD s d = some m)
    (hi : ∀ i, m.iga = some i → ∃ g, liveI s i = some g) : Ok Sane (destroyD s d) := by
  unfold destroyD
  rw [hl]
  dsimp only
  split
  · exact h
  · cases e : m.iga with
    | none => exact h
    | some i =>
      have := hi i e
      exact destroyI_ok (s := putD s d { m with refct := m.refct - 1, freed := true, iga := some i }) h this

theorem destroyO_ok {hI hD : Nat → Nat} {s : State} (hv : Inv hI hD s) (h : Sane s) {o : Nat} {b : Obj}
    (hb : s.objs[o]? = some b) (hf : b.freed = false) : Ok Sane (destroyO s o) := by
  unfold destroyO
  rw [hb]
  simp only [hf, Bool.false_eq_true, if_false]
  have h1 := hv.freeO hb hf
  obtain ⟨s1, hs1⟩ : ∃ s1 : State, s1 = { s with objs := s.objs.set o { b with freed := true } } := ⟨_, rfl⟩
  have h2 : Sane s1 := by rw [hs1]; exact h
  have e : ({ s with objs := s.objs.set o { b with freed := true } } : State) = s1 := hs1.symm
  rw [e] at h1 ⊢
  refine Ok.andThen (P := fun s2 => Sane s2 ∧ Inv (match b.iga with | none => hI | some i => bump hI i) hD s2) ?_ ?_
    (fun _ h => h.1)
  · cases hd : b.dm with
    | none => rw [hd] at h1; exact ⟨h2, h1⟩
    | some d =>
      rw [hd] at h1
      obtain ⟨m, hm⟩ := heldD_live h1 (d := d) (by show bump hD d d ≠ 0; rw [bump_self]; omega)
      have := destroyD_ok h2 hm (fun i hi => h1.live hm hi)
      exact (Ok.and (destroyD_sat d h1) this).mono fun s2 h => ⟨h.2, h.1.1⟩
  · intro s2 _ h3
    cases hi : b.iga with
    | none => exact h3.1
    | some i =>
      have h4 := h3.2
      rw [hi] at h4
      exact destroyI_ok h3.1 (heldI_live h4 (by show bump hI i i ≠ 0; rw [bump_self]; omega))

theorem setUpI_ok {s : State} {i : Nat} {lib : Bool} (h : Sane s) (hl : ∃ g, liveI s i = some g) :
    Ok (fun s' => Sane s' ∧ s'.dms = s.dms) (setUpI s i lib) := by
  obtain ⟨g, hl⟩ := hl
  have hn := h i g (liveI_eq hl).1
  unfold setUpI
  rw [hl]
  dsimp only
  split
  · exact ⟨h, rfl⟩
  · split
    · exact ⟨h, rfl⟩
    · refine ⟨?_, rfl⟩
      refine h.putI (s := { s with next := s.next + 1 }) ⟨?_, ?_, ?_⟩
      · intro n e
        cases hv : g.vtype with
        | none => simp [hv, defaultName] at e; rw [← e]
        | some n' => simp [hv, defaultName] at e; subst e; exact hn.v n' hv
      · intro n e
        cases hv : g.mtype with
        | none => simp [hv, defaultName] at e; rw [← e]
        | some n' => simp [hv, defaultName] at e; subst e; exact hn.m n' hv
      · intro _
        constructor
        · cases hv : g.vtype <;> simp [defaultName]
        · cases hv : g.mtype <;> simp [defaultName]

/-- After a successful set-up the IGA is there and set up. -/
theorem setUpI_live {s s' : State} {i : Nat} {lib : Bool} (h : setUpI s i lib = .done s') :
    ∃ g, liveI s' i = some g ∧ g.setup = true := by
  unfold setUpI at h
  cases hl : liveI s i with
  | none => simp [hl] at h
  | some g =>
    simp only [hl] at h
    split at h
    · rename_i hs
      simp only [Out.done.injEq] at h
      subst h
      exact ⟨g, hl, hs⟩
    · split at h
      · exact absurd h (by simp)
      · simp only [Out.done.injEq] at h
        subst h
        exact ⟨_, liveI_of (get_set_self (liveI_eq hl).1) (liveI_eq hl).2, rfl⟩

theorem loadI_ok {s : State} {i dim nsd : Nat} {lib : Bool} (h : Sane s) (hl : ∃ g, liveI s i = some g) :
    Ok (fun s' => Sane s' ∧ s'.dms = s.dms) (loadI s i dim nsd lib) := by
  obtain ⟨g, hl⟩ := hl
  have hn := h i g (liveI_eq hl).1
  unfold loadI
  rw [hl]
  dsimp only
  refine setUpI_ok (s := putI s i { g with setup := false, map := none, dim := dim, nsd := nsd })
    (h.putI ⟨hn.v, hn.m, fun e => by simp at e⟩) ?_
  exact ⟨_, liveI_of (get_set_self (liveI_eq hl).1) (liveI_eq hl).2⟩

theorem createI_ok {s : State} {i : Nat} {k : Kind} {lib : Bool} (h : Sane s) (hl : ∃ g, liveI s i = some g) :
    Ok Sane (createI s i k lib) := by
  obtain ⟨g, hl⟩ := hl
  have hn := h i g (liveI_eq hl).1
  unfold createI
  rw [hl]
  dsimp only
  split
  · exact h
  · rename_i hs
    obtain ⟨v, t, _, _, hv, ht⟩ := hn.read (by simpa using hs) s
    have : ∃ x, readName s (nameOf g k) = some x := by
      cases k
      · exact ⟨v, hv⟩
      · exact ⟨v, hv⟩
      · exact ⟨t, ht⟩
    obtain ⟨x, hx⟩ := this
    rw [hx]
    dsimp only
    split
    · exact h
    · split
      · exact h
      · unfold refI
        rw [show ∀ l, liveI { s with objs := l } i = liveI s i from fun _ => rfl, hl]
        exact h.putI (s := { s with objs := _ }) ⟨hn.v, hn.m, hn.set⟩

theorem ensureIga_ok {s : State} {d dof dim : Nat} {v m : Option String} {lib : Bool} (h : Sane s)
    (hl : ∃ dm, liveD s d = some dm) : Ok Sane (ensureIga s d dof dim v m lib) := by
  obtain ⟨dm, hl⟩ := hl
  unfold ensureIga
  rw [hl]
  dsimp only
  cases hi : dm.iga with
  | some i => exact h
  | none =>
    dsimp only
    split
    · exact h
    · intro j g hg
      have hg : (s.igas ++ [newIga dof dim 0 v m])[j]? = some g := hg
      by_cases e : j < s.igas.length
      · rw [List.getElem?_append_left e] at hg
        exact h j g hg
      · have hlt := (List.getElem?_eq_some_iff.1 hg).1
        simp only [List.length_append, List.length_cons, List.length_nil] at hlt
        obtain rfl : j = s.igas.length := by omega
        simp at hg
        subst hg
        refine ⟨?_, ?_, fun e => by simp [newIga] at e⟩
        · intro n e; cases v <;> simp [newIga] at e; rw [← e]
        · intro n e; cases m <;> simp [newIga] at e; rw [← e]

/-- After it the `DM` has an IGA. -/
theorem ensureIga_done {s s' : State} {d dof dim : Nat} {v m : Option String} {lib : Bool}
    (h : ensureIga s d dof dim v m lib = .done s') : ∃ (dm : Dm) (i : Nat), liveD s' d = some dm ∧ dm.iga = some i := by
  unfold ensureIga at h
  cases hl : liveD s d with
  | none => simp [hl] at h
  | some dm =>
    simp only [hl] at h
    cases hi : dm.iga with
    | some i =>
      simp only [hi, Out.done.injEq] at h
      subst h
      exact ⟨dm, i, hl, hi⟩
    | none =>
      simp only [hi] at h
      split at h
      · exact absurd h (by simp)
      · simp only [Out.done.injEq] at h
        subst h
        exact ⟨_, _, liveD_of (get_set_self (liveD_eq hl).1) (liveD_eq hl).2, rfl⟩

theorem copyFrom_ok {s : State} {d : Nat} {lib : Bool} (h : Sane s) {dm : Dm} {i : Nat} (hl : liveD s d = some dm)
    (hi : dm.iga = some i) (hg : ∃ g, liveI s i = some g) : Ok Sane (copyFrom s d lib) := by
  unfold copyFrom
  rw [hl]
  simp only [hi]
  refine Ok.andThen (setUpI_ok h hg) ?_ (fun _ h => h.1)
  intro s1 hs1 h1
  obtain ⟨g, hlg, hset⟩ := setUpI_live hs1
  rw [hlg]
  dsimp only
  obtain ⟨v, t, _, _, hv, ht⟩ := (h1.1 i g (liveI_eq hlg).1).read hset s1
  rw [hv, ht]
  exact h1.1

theorem copyFrom_live {s s' : State} {d : Nat} {lib : Bool} (h : copyFrom s d lib = .done s') :
    ∃ m, liveD s' d = some m := by
  unfold copyFrom at h
  cases hl : liveD s d with
  | none => simp [hl] at h
  | some m =>
    simp only [hl] at h
    cases hi : m.iga with
    | none => simp [hi] at h
    | some i =>
      simp only [hi] at h
      cases hs : setUpI s i lib with
      | ub => simp [hs, Out.andThen] at h
      | fail e s1 => simp [hs, Out.andThen] at h
      | done s1 =>
        have hd : s1.dms = s.dms := by
          unfold setUpI at hs
          split at hs
          · exact absurd hs (by simp)
          · split at hs
            · simp only [Out.done.injEq] at hs; subst hs; rfl
            · split at hs
              · exact absurd hs (by simp)
              · simp only [Out.done.injEq] at hs; subst hs; rfl
        simp only [hs, Out.andThen] at h
        split at h
        · exact absurd h (by simp)
        · split at h
          · simp only [Out.done.injEq] at h
            subst h
            refine ⟨_, liveD_of (get_set_self (a := m) (by rw [hd]; exact (liveD_eq hl).1)) ?_⟩
            exact (liveD_eq hl).2
          · exact absurd h (by simp)

theorem markSetUp_ok {s : State} {d : Nat} (h : Sane s) (hl : ∃ m, liveD s d = some m) : Ok Sane (markSetUp s d) := by
  obtain ⟨m, hl⟩ := hl
  unfold markSetUp
  rw [hl]
  exact h

/-- An invariant to carry along. -/
def Both (hI hD : Nat → Nat) (s : State) : Prop := Inv hI hD s ∧ Sane s

theorem setUpD_ok {hI hD : Nat → Nat} {s : State} {d dof dim : Nat} {v m : Option String} {lib : Bool} (h : Both hI hD s)
    (hl : ∃ dm, liveD s d = some dm) : Ok Sane (setUpD s d dof dim v m lib) := by
  obtain ⟨dm, hl⟩ := hl
  unfold setUpD
  rw [hl]
  dsimp only
  split
  · exact h.2
  · refine Ok.andThen (P := Both hI hD) ((Ok.and (ensureIga_sat d dof dim v m lib h.1) (ensureIga_ok h.2 ⟨dm, hl⟩)).mono
      fun _ h => ⟨h.1.1, h.2⟩) (fun s1 e1 h1 => ?_) (fun _ h => h.2)
    obtain ⟨dm1, i, hl1, hi1⟩ := ensureIga_done e1
    refine Ok.andThen (copyFrom_ok h1.2 hl1 hi1 (h1.1.live hl1 hi1)) (fun s2 e2 h2 => ?_) (fun _ h => h)
    exact markSetUp_ok h2 (copyFrom_live e2)

theorem loadI_dms {s s' : State} {i dim nsd : Nat} {lib : Bool} (h : loadI s i dim nsd lib = .done s') :
    s'.dms = s.dms ∧ ∃ g, liveI s' i = some g := by
  unfold loadI at h
  cases hl : liveI s i with
  | none => simp [hl] at h
  | some g =>
    simp only [hl] at h
    have h1 : s'.dms = s.dms := by
      unfold setUpI at h
      split at h
      · exact absurd h (by simp)
      · split at h
        · simp only [Out.done.injEq] at h; subst h; rfl
        · split at h
          · exact absurd h (by simp)
          · simp only [Out.done.injEq] at h; subst h; rfl
    obtain ⟨g', hg', _⟩ := setUpI_live h
    exact ⟨h1, g', hg'⟩

theorem loadD_ok {hI hD : Nat → Nat} {s : State} {d dof dim nsd : Nat} {v m : Option String} {lib : Bool} (h : Both hI hD s)
    (hl : ∃ dm, liveD s d = some dm) : Ok Sane (loadD s d dof dim nsd v m lib) := by
  obtain ⟨dm, hl⟩ := hl
  unfold loadD
  refine Ok.andThen (P := Both hI hD) ((Ok.and (ensureIga_sat d dof dim v m lib h.1) (ensureIga_ok h.2 ⟨dm, hl⟩)).mono
      fun _ h => ⟨h.1.1, h.2⟩) (fun s1 e1 h1 => ?_) (fun _ h => h.2)
  obtain ⟨dm1, i, hl1, hi1⟩ := ensureIga_done e1
  rw [hl1]
  simp only [hi1]
  refine Ok.andThen (P := Both hI hD) ((Ok.and (loadI_sat i dim nsd lib h1.1) (loadI_ok h1.2 (h1.1.live hl1 hi1))).mono
      fun _ h => ⟨h.1.1, h.2.1⟩) (fun s2 e2 h2 => ?_) (fun _ h => h.2)
  obtain ⟨hdm, hg2⟩ := loadI_dms e2
  have hl2 : liveD s2 d = some dm1 := by
    unfold liveD at hl1 ⊢
    rw [hdm]
    exact hl1
  split
  · exact copyFrom_ok h2.2 hl2 hi1 hg2
  · refine Ok.andThen (copyFrom_ok h2.2 hl2 hi1 hg2) (fun s3 e3 h3 => ?_) (fun _ h => h)
    exact markSetUp_ok h3 (copyFrom_live e3)

theorem refI_done {s : State} {i : Nat} {g : Iga} (hl : liveI s i = some g) :
    refI s i = .done (putI s i { g with refct := g.refct + 1 }) := by
  unfold refI; rw [hl]

theorem createFrom_ok {s : State} {i : Nat} {lib : Bool} (h : Sane s) (hl : ∃ g, liveI s i = some g) :
    Ok Sane (createFrom s i lib) := by
  obtain ⟨g, hl⟩ := hl
  have hn := h i g (liveI_eq hl).1
  by_cases hs : g.setup = true
  · obtain ⟨v, t, hv, ht, _⟩ := hn.read hs s
    rw [createFrom_done hl hs hv ht]
    exact h.putI ⟨hn.v, hn.m, hn.set⟩
  · unfold createFrom
    rw [refI_done hl]
    have h1 : liveI (allocD (putI s i { g with refct := g.refct + 1 }) (some i)) i = some { g with refct := g.refct + 1 } :=
      liveI_of (get_set_self (liveI_eq hl).1) (liveI_eq hl).2
    simp only [Out.andThen]
    rw [h1]
    dsimp only
    rw [if_neg hs]
    have := h.putI (i := i) (g := { g with refct := g.refct + 1 }) ⟨hn.v, hn.m, hn.set⟩
    exact this

theorem setIga_ok {s : State} {d i : Nat} (h : Sane s) (hd : ∃ m, liveD s d = some m) (hl : ∃ g, liveI s i = some g) :
    Ok Sane (setIga s d i) := by
  obtain ⟨m, hd⟩ := hd
  obtain ⟨g, hl⟩ := hl
  have hn := h i g (liveI_eq hl).1
  have h1 : Sane (putI s i { g with refct := g.refct + 1 }) := h.putI ⟨hn.v, hn.m, hn.set⟩
  unfold setIga
  rw [hd]
  dsimp only
  rw [hl]
  dsimp only
  cases hi : m.iga with
  | none =>
    dsimp only
    rw [refI_done hl]
    exact h1
  | some j =>
    dsimp only
    split
    · rw [refI_done hl]
      exact destroyI_ok h1 ⟨_, liveI_of (get_set_self (liveI_eq hl).1) (liveI_eq hl).2⟩
    · exact h

end PetIGA.DMI
