import Verif.Lemmas.DMIGA

/-!
C101: a `DM` made from an IGA shares it – reference counts, what the `DM` reports about the IGA, and the type of the vectors and
matrices it creates (petigadm.c).
-/

set_option linter.unusedSectionVars false

namespace PetIGA.DMI

/-! ### Reference counts -/

/-- C101: at every moment of every program – whatever calls failed before – an IGA exists exactly as long as the program owns
a reference to it or some `DM`, vector or matrix that still exists refers to it, and a `DM` exists exactly as long as the
program owns a reference or a vector or matrix is attached to it. -/
theorem C101_references (ops : List Op) (s : State) (h : run init ops = some s) :
    (∀ (i : Nat) (g : Iga), s.igas[i]? = some g →
      (g.freed = false ↔ 0 < s.heldI i ∨ (∃ m ∈ s.dms, m.freed = false ∧ m.iga = some i) ∨
        (∃ b ∈ s.objs, b.freed = false ∧ b.iga = some i))) ∧
    (∀ (d : Nat) (m : Dm), s.dms[d]? = some m →
      (m.freed = false ↔ 0 < s.heldD d ∨ (∃ b ∈ s.objs, b.freed = false ∧ b.dm = some d))) := by
  have hg : Good s := run_good (s := init) inv_init h
  constructor
  · intro i g hi
    have h0 := hg.iga i g hi
    have h1 : 0 < s.dms.countP (holdsD i) ↔ ∃ m ∈ s.dms, m.freed = false ∧ m.iga = some i := by
      rw [List.countP_pos_iff]
      simp [holdsD]
    have h2 : 0 < s.objs.countP (holdsO i) ↔ ∃ b ∈ s.objs, b.freed = false ∧ b.iga = some i := by
      rw [List.countP_pos_iff]
      simp [holdsO]
    rw [← h1, ← h2]
    have h3 : refsI s i = s.dms.countP (holdsD i) + s.objs.countP (holdsO i) := rfl
    have h4 : (g.freed = false) ↔ ¬ g.refct = 0 := by
      rw [← h0.2]; simp
    rw [h4]
    omega
  · intro d m hm
    have h0 := hg.dm d m hm
    have h2 : 0 < s.objs.countP (attached d) ↔ ∃ b ∈ s.objs, b.freed = false ∧ b.dm = some d := by
      rw [List.countP_pos_iff]
      simp [attached]
    rw [← h2]
    have h3 : refsD s d = s.objs.countP (attached d) := rfl
    have h4 : (m.freed = false) ↔ ¬ m.refct = 0 := by
      rw [← h0.2]; simp
    rw [h4]
    omega

/-! ### Programs that follow the rules -/

/-- The rules of the API: handles refer to existing objects, only owned references are given up, and vectors, matrices and
derived `DM`s are requested from a `DM` that has an IGA. -/
def Legal (s : State) : Op → Prop
  | .igaCreate .. => True
  | .igaSetUp i _ => liveI s i ≠ none
  | .igaLoad i .. => liveI s i ≠ none
  | .igaSetVecType i _ => liveI s i ≠ none
  | .igaSetMatType i _ => liveI s i ≠ none
  | .igaMake i .. => liveI s i ≠ none
  | .igaReference i => liveI s i ≠ none
  | .igaDestroy i => 0 < s.heldI i
  | .dmNew => True
  | .dmCreate i _ => liveI s i ≠ none
  | .dmSetIga d i => liveD s d ≠ none ∧ liveI s i ≠ none
  | .dmSetVecType d _ => liveD s d ≠ none
  | .dmSetMatType d _ => liveD s d ≠ none
  | .dmSetUp d .. => liveD s d ≠ none
  | .dmLoad d .. => liveD s d ≠ none
  | .dmMake d .. => ∃ m, liveD s d = some m ∧ m.iga ≠ none
  | .dmDerive d .. => ∃ m, liveD s d = some m ∧ m.iga ≠ none
  | .dmReference d => liveD s d ≠ none
  | .dmDestroy d => 0 < s.heldD d
  | .destroy o => ∃ b, s.objs[o]? = some b ∧ b.freed = false

/-- The request of a vector or matrix from a `DM`. -/
def isMake : Op → Bool
  | .dmMake .. => true
  | _ => false

/-- A program that follows the rules; if `strict`, none of its requests of a vector or matrix from a `DM` fails. -/
def Proper (strict : Bool) (s : State) : List Op → Prop
  | [] => True
  | op :: ops => Legal s op ∧ match step s op with
    | .done s' => Proper strict s' ops
    | .fail _ s' => ¬ (strict = true ∧ isMake op = true) ∧ Proper strict s' ops
    | .ub => True

/-- Full statement: a program that follows the rules has defined behaviour. -/
def C101_defined_full : Prop := ∀ ops : List Op, Proper false init ops → run init ops ≠ none

/-- The lent and restored type of an IGA. -/
theorem withName_nameOf (g : Iga) (k : Kind) : withName g k (nameOf g k) = g := by
  cases k <;> rfl

theorem withName_withName (g : Iga) (k : Kind) (a b : Option Name) : withName (withName g k a) k b = withName g k b := by
  cases k <;> rfl

theorem nameOf_withName (g : Iga) (k : Kind) (a : Option Name) : nameOf (withName g k a) k = a := by
  cases k <;> rfl

theorem withName_setup (g : Iga) (k : Kind) (a : Option Name) : (withName g k a).setup = g.setup ∧
    (withName g k a).freed = g.freed ∧ (withName g k a).dof = g.dof ∧ (withName g k a).refct = g.refct := by
  cases k <;> exact ⟨rfl, rfl, rfl, rfl⟩

theorem createI_done {s : State} {i : Nat} {g : Iga} {k : Kind} {t : String} (hl : liveI s i = some g) (hs : g.setup = true)
    (ht : readName s (nameOf g k) = some t) :
    createI s i k true = .done { s with
      igas := if k = .local then s.igas else s.igas.set i { g with refct := g.refct + 1 }
      objs := s.objs ++ [{ freed := false, kind := k, type := t, bs := g.dof, iga := if k = .local then none else some i, dm := none }] } := by
  unfold createI
  rw [hl]
  simp only [hs, Bool.not_true, Bool.false_eq_true, if_false]
  rw [ht]
  simp only
  by_cases hk : k = .local
  · simp [hk]
  · simp only [hk, if_false]
    unfold refI
    rw [show ∀ l, liveI { s with objs := l } i = liveI s i from fun _ => rfl, hl]
    simp only [putI, hs]

/-- C101: what a request of a vector or matrix from a `DM` gives, when it succeeds: the object has the `DM`'s own type if the
`DM` has one and else the IGA's, the IGA's number of fields as block size, and is attached to the `DM`; the only other changes
are the two reference counts – in particular the IGA's types are what they were. -/
theorem C101_created (s : State) (d i : Nat) (m : Dm) (g : Iga) (k : Kind) (hd : liveD s d = some m) (hi : m.iga = some i)
    (hg : liveI s i = some g) (hs : g.setup = true) (hn : Names g) :
    ∃ t : String, (typeOf m k = some t ∨ (typeOf m k = none ∧ nameOf g k = some ⟨t, none⟩)) ∧
      createD s d k true = .done { s with
        igas := if k = .local then s.igas else s.igas.set i { g with refct := g.refct + 1 }
        dms := s.dms.set d { m with refct := m.refct + 1 }
        objs := s.objs ++ [{ freed := false, kind := k, type := t, bs := g.dof, iga := if k = .local then none else some i, dm := some d }] } := by
  obtain ⟨v, t0, ev, et, hv, ht⟩ := hn.read hs s
  obtain ⟨hgi, hgf⟩ := liveI_eq hg
  have hname : ∃ x, nameOf g k = some ⟨x, none⟩ := by
    cases k
    · exact ⟨v, ev⟩
    · exact ⟨v, ev⟩
    · exact ⟨t0, et⟩
  obtain ⟨x, hx⟩ := hname
  have hatt : ∀ (ig : List Iga) (b : Obj) (s1 : State), s1 = { s with igas := ig, objs := s.objs ++ [b] } →
      attach s1 d = .done { s with
        igas := ig
        dms := s.dms.set d { m with refct := m.refct + 1 }
        objs := s.objs ++ [{ b with dm := some d }] } := by
    intro ig b s1 e
    subst e
    unfold attach
    simp only [List.getLast?_concat, List.dropLast_concat]
    unfold refD
    rw [show ∀ l1 l2, liveD { s with igas := l1, objs := l2 } d = liveD s d from fun _ _ => rfl, hd]
    rfl
  simp only [hi] at hatt
  cases hty : typeOf m k with
  | none =>
    refine ⟨x, Or.inr ⟨rfl, hx⟩, ?_⟩
    unfold createD
    rw [hd]
    simp only [hi]
    rw [hg]
    simp only [hty, lend, Out.andThen]
    rw [createI_done hg hs (by rw [hx]; rfl)]
    simp only [restore]
    exact hatt _ _ _ rfl
  | some t =>
    refine ⟨t, Or.inl rfl, ?_⟩
    unfold createD
    rw [hd]
    simp only [hi]
    rw [hg]
    simp only [hty, lend, Out.andThen, hg]
    obtain ⟨g1, hg1⟩ : ∃ g1, g1 = withName g k (some ⟨t, some d⟩) := ⟨_, rfl⟩
    rw [← hg1]
    have hw := withName_setup g k (some ⟨t, some d⟩)
    rw [← hg1] at hw
    have hl1 : liveI (putI s i g1) i = some g1 := liveI_of (get_set_self hgi) (by rw [hw.2.1]; exact hgf)
    rw [createI_done (t := t) hl1 (by rw [hw.1]; exact hs) (by
      rw [hg1, nameOf_withName]
      show (liveD (putI s i _) d).map _ = _
      rw [show liveD (putI s i (withName g k (some ⟨t, some d⟩))) d = liveD s d from rfl, hd]
      rfl)]
    simp only
    by_cases hk : k = .local
    · simp only [hk, if_true, restore]
      rw [show ∀ l, liveI { putI s i g1 with igas := (putI s i g1).igas, objs := l } i = liveI (putI s i g1) i from fun _ => rfl, hl1]
      simp only
      rw [hatt s.igas { freed := false, kind := .local, type := t, bs := g1.dof, iga := none, dm := none } _ ?_]
      · simp only [hw.2.2.1]
      · have e1 : withName g1 .local (nameOf g .local) = g := by
          rw [hk] at hg1
          rw [hg1, withName_withName, withName_nameOf]
        simp only [putI, e1, List.set_set, set_same hgi]
    · simp only [hk, if_false, restore]
      have hl2 : ∀ l, liveI { putI s i g1 with igas := (putI s i g1).igas.set i { g1 with refct := g1.refct + 1 }, objs := l } i =
          some { g1 with refct := g1.refct + 1 } := by
        intro l
        refine liveI_of ?_ (by show g1.freed = false; rw [hw.2.1]; exact hgf)
        exact get_set_self (get_set_self hgi)
      rw [hl2]
      simp only
      rw [hatt (s.igas.set i { g with refct := g.refct + 1 }) { freed := false, kind := k, type := t, bs := g1.dof, iga := some i, dm := none } _ ?_]
      · simp only [hw.2.2.1]
      · have e1 : withName { g1 with refct := g1.refct + 1 } k (nameOf g k) = { g with refct := g.refct + 1 } := by
          rw [hg1]
          cases k <;> rfl
        simp only [putI, e1, List.set_set]

/-- One call of a program that follows the rules. -/
theorem step_ok {s : State} (h : Good s) (hn : Sane s) (op : Op) (hl : Legal s op) :
    match step s op with
    | .done s' => Sane s'
    | .fail _ s' => isMake op = false → Sane s'
    | .ub => False := by
  have gI : ∀ {i : Nat}, liveI s i ≠ none → ∃ g, liveI s i = some g := fun hx => Option.ne_none_iff_exists'.1 hx
  have gD : ∀ {d : Nat}, liveD s d ≠ none → ∃ m, liveD s d = some m := fun hx => Option.ne_none_iff_exists'.1 hx
  have key : Ok Sane (step s op) → match step s op with
    | .done s' => Sane s'
    | .fail _ s' => isMake op = false → Sane s'
    | .ub => False := by
    intro hk
    cases hx : step s op with
    | done s' => rw [hx] at hk; exact hk
    | fail e s' => rw [hx] at hk; exact fun _ => hk
    | ub => rw [hx] at hk; exact hk
  cases op with
  | igaCreate dof dim nsd =>
    refine key ?_
    intro j g hg
    have hg : (s.igas ++ [newIga dof dim nsd none none])[j]? = some g := hg
    by_cases e : j < s.igas.length
    · rw [List.getElem?_append_left e] at hg
      exact hn j g hg
    · have hlt := (List.getElem?_eq_some_iff.1 hg).1
      simp only [List.length_append, List.length_cons, List.length_nil] at hlt
      obtain rfl : j = s.igas.length := by omega
      simp at hg
      subst hg
      exact ⟨fun n e => by simp [newIga] at e, fun n e => by simp [newIga] at e, fun e => by simp [newIga] at e⟩
  | igaSetUp i lib => exact key ((setUpI_ok hn (gI hl)).mono fun _ h => h.1)
  | igaLoad i dim nsd lib => exact key ((loadI_ok hn (gI hl)).mono fun _ h => h.1)
  | igaSetVecType i t =>
    refine key ?_
    obtain ⟨g, hg⟩ := gI hl
    have h1 := hn i g (liveI_eq hg).1
    show Ok Sane (setVecTypeI s i t)
    unfold setVecTypeI
    rw [hg]
    simp only [h1.own.1, if_true]
    refine hn.putI ⟨fun n e => ?_, h1.m, fun e => ⟨by simp, (h1.set e).2⟩⟩
    simp only [Option.some.injEq] at e
    rw [← e]
  | igaSetMatType i t =>
    refine key ?_
    obtain ⟨g, hg⟩ := gI hl
    have h1 := hn i g (liveI_eq hg).1
    show Ok Sane (setMatTypeI s i t)
    unfold setMatTypeI
    rw [hg]
    simp only [h1.own.2, if_true]
    refine hn.putI ⟨h1.v, fun n e => ?_, fun e => ⟨(h1.set e).1, by simp⟩⟩
    simp only [Option.some.injEq] at e
    rw [← e]
  | igaMake i k lib => exact key (createI_ok hn (gI hl))
  | igaReference i =>
    refine key ?_
    obtain ⟨g, hg⟩ := gI hl
    have h1 := hn i g (liveI_eq hg).1
    show Ok Sane ((refI s i).andThen _)
    rw [refI_done hg]
    exact hn.putI ⟨h1.v, h1.m, h1.set⟩
  | igaDestroy i =>
    refine key ?_
    have hp : s.heldI i ≠ 0 := Nat.pos_iff_ne_zero.1 hl
    show Ok Sane (if s.heldI i = 0 then Out.ub else destroyI { s with heldI := drop s.heldI i } i)
    rw [if_neg hp]
    exact destroyI_ok (s := { s with heldI := drop s.heldI i }) hn (heldI_live h hp)
  | dmNew => exact key hn
  | dmCreate i lib => exact key (createFrom_ok hn (gI hl))
  | dmSetIga d i => exact key (setIga_ok hn (gD hl.1) (gI hl.2))
  | dmSetVecType d t =>
    refine key ?_
    obtain ⟨m, hm⟩ := gD hl
    show Ok Sane (match liveD s d with | none => Out.ub | some m => .done (putD s d { m with vtype := some t }))
    rw [hm]
    exact hn
  | dmSetMatType d t =>
    refine key ?_
    obtain ⟨m, hm⟩ := gD hl
    show Ok Sane (match liveD s d with | none => Out.ub | some m => .done (putD s d { m with mtype := some t }))
    rw [hm]
    exact hn
  | dmSetUp d dof dim v m lib => exact key (setUpD_ok ⟨h, hn⟩ (gD hl))
  | dmLoad d dof dim nsd v m lib => exact key (loadD_ok ⟨h, hn⟩ (gD hl))
  | dmMake d k lib =>
    obtain ⟨m, hm, hi⟩ := hl
    obtain ⟨i, hi⟩ := Option.ne_none_iff_exists'.1 hi
    obtain ⟨g, hg⟩ := Inv.live h hm hi
    have h1 := hn i g (liveI_eq hg).1
    show match createD s d k lib with
      | .done s' => Sane s'
      | .fail _ s' => isMake (.dmMake d k lib) = false → Sane s'
      | .ub => False
    have hbad : isMake (.dmMake d k lib) ≠ false := by simp [isMake]
    by_cases hs : g.setup = true
    · cases lib with
      | true =>
        obtain ⟨t, _, he⟩ := C101_created s d i m g k hm hi hg hs h1
        rw [he]
        show Sane _
        by_cases hk : k = .local
        · simp only [hk, if_true]; exact hn
        · simp only [hk, if_false]
          have := hn.putI (i := i) (g := { g with refct := g.refct + 1 }) ⟨h1.v, h1.m, h1.set⟩
          exact this
      | false =>
        cases hx : createD s d k false with
        | fail e s' => exact fun hc => absurd hc hbad
        | done s' =>
          exfalso
          unfold createD at hx
          rw [hm] at hx
          simp only [hi] at hx
          rw [hg] at hx
          simp only at hx
          cases hle : lend s d i k (typeOf m k) with
          | ub => simp [hle, Out.andThen] at hx
          | fail e s1 => simp [hle, Out.andThen] at hx
          | done s1 =>
            simp only [hle, Out.andThen] at hx
            cases hc : createI s1 i k false with
            | ub => simp [hc] at hx
            | fail e s2 => simp [hc] at hx
            | done s2 =>
              unfold createI at hc
              split at hc
              · exact absurd hc (by simp)
              · split at hc
                · exact absurd hc (by simp)
                · split at hc
                  · exact absurd hc (by simp)
                  · exact absurd hc (by simp)
        | ub =>
          exfalso
          unfold createD at hx
          rw [hm] at hx
          simp only [hi] at hx
          rw [hg] at hx
          simp only at hx
          obtain ⟨v, t, ev, et, hv, ht⟩ := h1.read hs s
          cases hty : typeOf m k with
          | none =>
            rw [hty] at hx
            simp only [lend, Out.andThen] at hx
            have := createI_ok (k := k) (lib := false) hn ⟨g, hg⟩
            cases hc : createI s i k false with
            | ub => rw [hc] at this; exact this
            | fail e s2 => simp [hc] at hx
            | done s2 =>
              unfold createI at hc
              rw [hg] at hc
              simp only [hs, Bool.not_true, Bool.false_eq_true, if_false, Bool.not_false, if_true] at hc
              split at hc <;> exact absurd hc (by simp)
          | some t' =>
            rw [hty] at hx
            simp only [lend, hg, Out.andThen] at hx
            unfold createI at hx
            have hw := withName_setup g k (some ⟨t', some d⟩)
            rw [show liveI (putI s i (withName g k (some ⟨t', some d⟩))) i = some (withName g k (some ⟨t', some d⟩)) from
              liveI_of (get_set_self (liveI_eq hg).1) (by rw [hw.2.1]; exact (liveI_eq hg).2)] at hx
            simp only [hw.1, hs, Bool.not_true, Bool.false_eq_true, if_false, nameOf_withName, Bool.not_false, if_true] at hx
            rw [show readName (putI s i (withName g k (some ⟨t', some d⟩))) (some ⟨t', some d⟩) = some t' from by
              show (liveD (putI s i _) d).map _ = _
              rw [show liveD (putI s i (withName g k (some ⟨t', some d⟩))) d = liveD s d from rfl, hm]
              rfl] at hx
            exact absurd hx (by simp)
    · have hsf : g.setup = false := by simpa using hs
      have : ∃ e s', createD s d k lib = .fail e s' := by
        unfold createD
        rw [hm]
        simp only [hi]
        rw [hg]
        simp only
        cases hty : typeOf m k with
        | none =>
          simp only [lend, Out.andThen]
          unfold createI
          rw [hg]
          simp [hsf]
        | some t' =>
          simp only [lend, hg, Out.andThen]
          unfold createI
          have hw := withName_setup g k (some ⟨t', some d⟩)
          rw [show liveI (putI s i (withName g k (some ⟨t', some d⟩))) i = some (withName g k (some ⟨t', some d⟩)) from
            liveI_of (get_set_self (liveI_eq hg).1) (by rw [hw.2.1]; exact (liveI_eq hg).2)]
          simp [hw.1, hsf]
      obtain ⟨e, s', he⟩ := this
      rw [he]
      exact fun hc => absurd hc hbad
  | dmDerive d w lib =>
    refine key ?_
    obtain ⟨m, hm, hi⟩ := hl
    obtain ⟨i, hi⟩ := Option.ne_none_iff_exists'.1 hi
    obtain ⟨g, hg⟩ := Inv.live h hm hi
    show Ok Sane (deriveD s d w lib)
    unfold deriveD
    rw [hm]
    simp only [hi]
    rw [hg]
    simp only
    unfold cloneI
    rw [hg]
    simp only
    split
    · exact hn
    · split
      · exact hn
      · simp only [Out.andThen]
        obtain ⟨n, hnn⟩ : ∃ n, n = (if 0 < w.dof g then w.dof g else g.dof) := ⟨_, rfl⟩
        rw [← hnn]
        obtain ⟨gn, hgn⟩ : ∃ gn : Iga, gn = { newIga n g.dim g.nsd (some "standard")
          (some (if 1 < n then "baij" else "aij")) with setup := true, map := some s.next } := ⟨_, rfl⟩
        rw [← hgn]
        obtain ⟨sn, hsn⟩ : ∃ sn : State, sn = { s with igas := s.igas ++ [gn], next := s.next + 1 } := ⟨_, rfl⟩
        rw [← hsn]
        have hnames : Names gn := by
          rw [hgn]
          refine ⟨fun n e => ?_, fun n e => ?_, fun _ => ⟨by simp [newIga], by simp [newIga]⟩⟩
          · simp [newIga] at e; rw [← e]
          · simp [newIga] at e; rw [← e]
        have hln : liveI sn s.igas.length = some gn := by
          rw [hsn]
          exact liveI_of (by simp) (by rw [hgn]; rfl)
        have hsane : Sane sn := by
          intro j g' hg'
          rw [hsn] at hg'
          have hg' : (s.igas ++ [gn])[j]? = some g' := hg'
          by_cases e : j < s.igas.length
          · rw [List.getElem?_append_left e] at hg'
            exact hn j g' hg'
          · have hlt := (List.getElem?_eq_some_iff.1 hg').1
            simp only [List.length_append, List.length_cons, List.length_nil] at hlt
            obtain rfl : j = s.igas.length := by omega
            simp at hg'
            subst hg'
            exact hnames
        have hcf := createFrom_done (v := "standard") (t := if 1 < n then "baij" else "aij") hln (by rw [hgn])
          (by rw [hgn]; rfl) (by rw [hgn]; rfl) lib
        have hok := createFrom_ok (lib := lib) hsane ⟨gn, hln⟩
        rw [hcf] at hok ⊢
        simp only
        refine destroyI_ok hok ⟨{ gn with refct := gn.refct + 1 }, liveI_of ?_ (by rw [hgn]; rfl)⟩
        exact get_set_self (liveI_eq hln).1
  | dmReference d =>
    refine key ?_
    obtain ⟨m, hm⟩ := gD hl
    show Ok Sane ((refD s d).andThen _)
    unfold refD
    rw [hm]
    exact hn
  | dmDestroy d =>
    refine key ?_
    have hp : s.heldD d ≠ 0 := Nat.pos_iff_ne_zero.1 hl
    obtain ⟨m, hm⟩ := heldD_live h hp
    show Ok Sane (if s.heldD d = 0 then Out.ub else destroyD { s with heldD := drop s.heldD d } d)
    rw [if_neg hp]
    exact destroyD_ok (s := { s with heldD := drop s.heldD d }) hn hm (fun i hi => Inv.live h hm hi)
  | destroy o =>
    obtain ⟨b, hb, hf⟩ := hl
    exact key (destroyO_ok h hn hb hf)

/-- C101, the part of `C101_defined_full` that holds: a program that follows the rules has defined behaviour – no released
object is used, nothing is released twice – provided that no request of a vector or matrix from a `DM` fails. -/
theorem C101_defined_partial (ops : List Op) (h : Proper true init ops) : run init ops ≠ none := by
  have main : ∀ (ops : List Op) (s : State), Good s → Sane s → Proper true s ops → run s ops ≠ none := by
    intro ops
    induction ops with
    | nil => intro s _ _ _; simp [run]
    | cons op ops ih =>
      intro s hg hn hp
      obtain ⟨hl, hp⟩ := hp
      have h1 := step_ok hg hn op hl
      have h2 := step_good hg op
      unfold run
      cases hx : step s op with
      | done s' =>
        rw [hx] at h1 h2 hp
        exact ih s' h2 h1 hp
      | fail e s' =>
        rw [hx] at h1 h2 hp
        refine ih s' h2 (h1 ?_) hp.2
        have := hp.1
        simpa using this
      | ub => rw [hx] at h1; exact h1.elim
  exact main ops init inv_init (fun i g hg => by simp [init] at hg) h

/-! ### What a `DM` reports -/

/-- C101: a successful `DMSetUp` (the first one) or `DMLoad` leaves the `DM` with an IGA that is set up, and the block size,
dimensions, mapping and types of the `DM` are those of that IGA at that moment. -/
theorem C101_reports (s s' : State) (d : Nat) (op : Op)
    (hop : (∃ dof dim v m lib, op = .dmSetUp d dof dim v m lib ∧ ∀ x, liveD s d = some x → x.called = false) ∨
      (∃ dof dim nsd v m lib, op = .dmLoad d dof dim nsd v m lib))
    (h : step s op = .done s') :
    ∃ (m : Dm) (i : Nat) (g : Iga) (v t : Name), liveD s' d = some m ∧ m.iga = some i ∧ liveI s' i = some g ∧ g.setup = true ∧
      m.bs = g.dof ∧ m.dim = g.dim ∧ m.cdim = (if 1 ≤ g.nsd then g.nsd else g.dim) ∧ m.map = g.map ∧
      g.vtype = some v ∧ m.vtype = some v.text ∧ g.mtype = some t ∧ m.mtype = some t.text := by
  have hread : ∀ (s : State) (x : Option Name) (y : String), readName s x = some y → ∃ n : Name, x = some n ∧ n.text = y := by
    intro s x y e
    cases x with
    | none => simp [readName] at e
    | some n =>
      refine ⟨n, rfl, ?_⟩
      obtain ⟨t, l⟩ := n
      cases l with
      | none => simpa [readName] using e
      | some d' =>
        simp only [readName, Option.map_eq_some_iff] at e
        obtain ⟨_, _, e⟩ := e
        exact e
  -- copying
  have hcopy : ∀ (s s' : State) (lib : Bool), copyFrom s d lib = .done s' →
      ∃ (m : Dm) (i : Nat) (g : Iga) (v t : Name), liveD s' d = some m ∧ m.iga = some i ∧ liveI s' i = some g ∧ g.setup = true ∧
      m.bs = g.dof ∧ m.dim = g.dim ∧ m.cdim = (if 1 ≤ g.nsd then g.nsd else g.dim) ∧ m.map = g.map ∧
      g.vtype = some v ∧ m.vtype = some v.text ∧ g.mtype = some t ∧ m.mtype = some t.text := by
    intro s s' lib h
    unfold copyFrom at h
    cases hl : liveD s d with
    | none => simp [hl] at h
    | some m =>
      simp only [hl] at h
      cases hi : m.iga with
      | none => simp [hi] at h
      | some i =>
        simp only [hi] at h
        cases hs : setUpI s i lib with
        | ub => simp [hs, Out.andThen] at h
        | fail e s1 => simp [hs, Out.andThen] at h
        | done s1 =>
          have hd : s1.dms = s.dms := by
            unfold setUpI at hs
            split at hs
            · exact absurd hs (by simp)
            · split at hs
              · simp only [Out.done.injEq] at hs; subst hs; rfl
              · split at hs
                · exact absurd hs (by simp)
                · simp only [Out.done.injEq] at hs; subst hs; rfl
          obtain ⟨g, hlg, hset⟩ := setUpI_live hs
          simp only [hs, Out.andThen, hlg] at h
          cases hv : readName s1 g.vtype with
          | none => simp [hv] at h
          | some v =>
            cases ht : readName s1 g.mtype with
            | none => simp [hv, ht] at h
            | some t =>
              simp only [hv, ht, Out.done.injEq] at h
              subst h
              obtain ⟨nv, ev, rfl⟩ := hread _ _ _ hv
              obtain ⟨nt, et, rfl⟩ := hread _ _ _ ht
              refine ⟨_, i, g, nv, nt, liveD_of (get_set_self (a := m) (by rw [hd]; exact (liveD_eq hl).1)) ?_, ?_, hlg, hset,
                rfl, rfl, rfl, rfl, ev, rfl, et, rfl⟩
              · exact (liveD_eq hl).2
              · rfl
  have hmark : ∀ (s s' : State), markSetUp s d = .done s' → (∃ (m : Dm) (i : Nat) (g : Iga) (v t : Name), liveD s d = some m ∧ m.iga = some i ∧ liveI s i = some g ∧ g.setup = true ∧
      m.bs = g.dof ∧ m.dim = g.dim ∧ m.cdim = (if 1 ≤ g.nsd then g.nsd else g.dim) ∧ m.map = g.map ∧
      g.vtype = some v ∧ m.vtype = some v.text ∧ g.mtype = some t ∧ m.mtype = some t.text) →
      ∃ (m : Dm) (i : Nat) (g : Iga) (v t : Name), liveD s' d = some m ∧ m.iga = some i ∧ liveI s' i = some g ∧ g.setup = true ∧
      m.bs = g.dof ∧ m.dim = g.dim ∧ m.cdim = (if 1 ≤ g.nsd then g.nsd else g.dim) ∧ m.map = g.map ∧
      g.vtype = some v ∧ m.vtype = some v.text ∧ g.mtype = some t ∧ m.mtype = some t.text := by
    rintro s s' h ⟨m, i, g, v, t, hl, hi, hg, hrest⟩
    unfold markSetUp at h
    simp only [hl, Out.done.injEq] at h
    subst h
    exact ⟨{ m with called := true }, i, g, v, t, liveD_of (get_set_self (liveD_eq hl).1) (liveD_eq hl).2, hi, hg, hrest⟩
  have hboth : ∀ (s s' : State) (lib : Bool), ((copyFrom s d lib).andThen fun s => markSetUp s d) = .done s' →
      ∃ (m : Dm) (i : Nat) (g : Iga) (v t : Name), liveD s' d = some m ∧ m.iga = some i ∧ liveI s' i = some g ∧ g.setup = true ∧
      m.bs = g.dof ∧ m.dim = g.dim ∧ m.cdim = (if 1 ≤ g.nsd then g.nsd else g.dim) ∧ m.map = g.map ∧
      g.vtype = some v ∧ m.vtype = some v.text ∧ g.mtype = some t ∧ m.mtype = some t.text := by
    intro s s' lib h
    cases hc : copyFrom s d lib with
    | ub => simp [hc, Out.andThen] at h
    | fail e s1 => simp [hc, Out.andThen] at h
    | done s1 =>
      simp only [hc, Out.andThen] at h
      exact hmark _ _ h (hcopy _ _ _ hc)
  rcases hop with ⟨dof, dim, v, m, lib, rfl, hx⟩ | ⟨dof, dim, nsd, v, m, lib, rfl⟩
  · have h : setUpD s d dof dim v m lib = .done s' := h
    unfold setUpD at h
    cases hl : liveD s d with
    | none => simp [hl] at h
    | some x =>
      simp only [hl, hx x hl, Bool.false_eq_true, if_false] at h
      cases he : ensureIga s d dof dim v m lib with
      | ub => simp [he, Out.andThen] at h
      | fail e s1 => simp [he, Out.andThen] at h
      | done s1 =>
        rw [he] at h
        exact hboth s1 s' lib h
  · have h : loadD s d dof dim nsd v m lib = .done s' := h
    unfold loadD at h
    cases he : ensureIga s d dof dim v m lib with
    | ub => simp [he, Out.andThen] at h
    | fail e s1 => simp [he, Out.andThen] at h
    | done s1 =>
      rw [he] at h
      simp only [Out.andThen] at h
      cases hl : liveD s1 d with
      | none => simp [hl] at h
      | some x =>
        simp only [hl] at h
        cases hi : x.iga with
        | none => simp [hi] at h
        | some i =>
          simp only [hi] at h
          cases hld : loadI s1 i dim nsd lib with
          | ub => simp [hld] at h
          | fail e s2 => simp [hld] at h
          | done s2 =>
            simp only [hld] at h
            split at h
            · exact hcopy s2 s' lib h
            · exact hboth s2 s' lib h

/-! ### Derived `DM`s -/

/-- The number of fields a derived `DM` is asked for: those of the original for a clone, one per coordinate of the parametric or physical space,
whichever has more, for the coordinates, and the number of selected fields for a sub-`DM`. -/
def fieldsWanted (dof dim nsd : Nat) : Derived → Nat
  | .clone => dof
  | .coord => if dim < nsd then nsd else dim
  | .sub n => n

theorem fieldsWanted_eq (g : Iga) (w : Derived) : w.dof g = fieldsWanted g.dof g.dim g.nsd w := by
  cases w with
  | clone => rfl
  | coord => show max g.dim g.nsd = if g.dim < g.nsd then g.nsd else g.dim; split_ifs <;> omega
  | sub n => rfl

/-- C101: `DMClone`, `DMCreateCoordinateDM` and `DMCreateSubDM` give a `DM`, owned by the program, around a new IGA that only
this `DM` refers to, with the number of fields asked for and the sizes of the original; the existing objects are as they
were.  The types are the default ones, whatever the original's. -/
theorem C101_derived (s : State) (d i : Nat) (m : Dm) (g : Iga) (w : Derived) (hd : liveD s d = some m) (hi : m.iga = some i)
    (hg : liveI s i = some g) (hs : g.setup = true) (hw : 0 < fieldsWanted g.dof g.dim g.nsd w) :
    ∃ (gn : Iga) (mn : Dm), deriveD s d w true = .done { s with
        igas := s.igas ++ [gn], dms := s.dms ++ [mn], heldD := bump s.heldD s.dms.length, next := s.next + 1 } ∧
      mn.iga = some s.igas.length ∧ gn.refct = 1 ∧ gn.freed = false ∧ mn.refct = 1 ∧ mn.freed = false ∧ gn.setup = true ∧
      gn.dof = fieldsWanted g.dof g.dim g.nsd w ∧ gn.dim = g.dim ∧ gn.nsd = g.nsd ∧ mn.bs = fieldsWanted g.dof g.dim g.nsd w ∧ mn.dim = g.dim ∧
      mn.cdim = (if 1 ≤ g.nsd then g.nsd else g.dim) ∧ mn.map = gn.map ∧ gn.map = some s.next ∧
      mn.vtype = some "standard" ∧ mn.mtype = some (if 1 < fieldsWanted g.dof g.dim g.nsd w then "baij" else "aij") := by
  rw [← fieldsWanted_eq] at hw ⊢
  unfold deriveD
  rw [hd]
  simp only [hi]
  rw [hg]
  simp only
  unfold cloneI
  rw [hg]
  simp only [hs, Bool.not_true, Bool.false_eq_true, if_false, hw, if_true, Out.andThen]
  obtain ⟨gn, hgn⟩ : ∃ gn : Iga, gn = { newIga (w.dof g) g.dim g.nsd (some "standard")
    (some (if 1 < w.dof g then "baij" else "aij")) with setup := true, map := some s.next } := ⟨_, rfl⟩
  rw [← hgn]
  obtain ⟨sn, hsn⟩ : ∃ sn : State, sn = { s with igas := s.igas ++ [gn], next := s.next + 1 } := ⟨_, rfl⟩
  rw [← hsn]
  have hln : liveI sn s.igas.length = some gn := by
    rw [hsn]
    exact liveI_of (by simp) (by rw [hgn]; rfl)
  rw [createFrom_done (v := "standard") (t := if 1 < w.dof g then "baij" else "aij") hln (by rw [hgn])
    (by rw [hgn]; rfl) (by rw [hgn]; rfl) true]
  simp only
  refine ⟨gn, { refct := 1, freed := false, iga := some s.igas.length, called := true, bs := gn.dof, dim := gn.dim,
                cdim := if 1 ≤ gn.nsd then gn.nsd else gn.dim, map := gn.map, vtype := some "standard",
                mtype := some (if 1 < w.dof g then "baij" else "aij") }, ?_, rfl, ?_⟩
  · unfold destroyI
    have hl2 : ∀ (l : List Dm) (f : Nat → Nat), liveI { sn with igas := sn.igas.set s.igas.length { gn with refct := gn.refct + 1 }, dms := l, heldD := f } s.igas.length =
        some { gn with refct := gn.refct + 1 } := by
      intro l f
      exact liveI_of (get_set_self (liveI_eq hln).1) (by rw [hgn]; rfl)
    rw [hl2]
    have h2 : gn.refct + 1 - 1 > 0 := by rw [hgn]; simp [newIga]
    simp only [h2, if_true]
    have h3 : ({ gn with refct := gn.refct + 1 - 1 } : Iga) = gn := by
      rw [Int.add_sub_cancel]
    simp only [h3, putI, List.set_set, set_same (liveI_eq hln).1]
    rw [hsn]
  · rw [hgn]
    exact ⟨rfl, rfl, rfl, rfl, rfl, rfl, rfl, rfl, rfl, rfl, rfl, rfl, rfl, rfl, rfl⟩

/-! ### What does not hold -/

/-- A program that follows the rules: an IGA, a `DM` around it, a vector type chosen for the `DM` that cannot be created
(a library without that type), and the release of both objects. -/
def badProgram : List Op :=
  [.igaCreate 1 2 0, .igaSetUp 0 true, .dmCreate 0 true, .dmSetVecType 0 "cuda", .dmMake 0 .vec false, .dmDestroy 0, .igaDestroy 0]

/-- C101 does not hold in full: when the creation of a vector fails, `CHKERRQ` returns before the type is restored
(petigadm.c:150-152); the IGA keeps pointing to the `DM`'s string and releases it. -/
theorem C101_defined_refuted : ¬ C101_defined_full := by
  intro h
  refine h badProgram ?_ ?_
  · simp [badProgram, Proper, Legal, step, init, newIga, bump, setUpI, liveI, putI, defaultName, createFrom, refI, allocD,
      newDm, setUpD, liveD, ensureIga, copyFrom, readName, markSetUp, putD, Out.andThen, createD, lend, typeOf, withName,
      createI, nameOf, drop, destroyD, destroyI, ownName]
  · simp [badProgram, run, step, init, newIga, bump, setUpI, liveI, putI, defaultName, createFrom, refI, allocD,
      newDm, setUpD, liveD, ensureIga, copyFrom, readName, markSetUp, putD, Out.andThen, createD, lend, typeOf, withName,
      createI, nameOf, drop, destroyD, destroyI, ownName]

/-- Full statement: a failed request leaves the IGA's own types alone. -/
def C101_types_kept_full : Prop := ∀ (ops : List Op) (s s' : State) (d : Nat) (k : Kind) (lib : Bool) (e : Err),
  Proper false init ops → run init ops = some s → step s (.dmMake d k lib) = .fail e s' → s'.igas = s.igas

/-- It does not: after the failure the IGA itself creates vectors of the `DM`'s type. -/
theorem C101_types_kept_refuted : ¬ C101_types_kept_full := by
  intro h
  obtain ⟨s, hs⟩ : ∃ s, run init (badProgram.take 4) = some s := by
    simp [badProgram, run, step, init, newIga, bump, setUpI, liveI, putI, defaultName, createFrom, refI, allocD,
      newDm, setUpD, liveD, ensureIga, copyFrom, readName, markSetUp, putD, Out.andThen]
  have hp : Proper false init (badProgram.take 4) := by
    simp [badProgram, Proper, Legal, step, init, newIga, bump, setUpI, liveI, putI, defaultName, createFrom, refI, allocD,
      newDm, setUpD, liveD, ensureIga, copyFrom, readName, markSetUp, putD, Out.andThen]
  have hs' := hs
  simp [badProgram, run, step, init, newIga, bump, setUpI, liveI, putI, defaultName, createFrom, refI, allocD,
      newDm, setUpD, liveD, ensureIga, copyFrom, readName, markSetUp, putD, Out.andThen] at hs'
  have hx : ∃ e s', step s (.dmMake 0 .vec false) = .fail e s' ∧ s'.igas ≠ s.igas := by
    rw [← hs']
    simp [step, createD, lend, typeOf, withName, createI, nameOf, liveI, liveD, putI, readName, Out.andThen]
  obtain ⟨e, s', h1, h2⟩ := hx
  exact h2 (h _ s s' 0 .vec false e hp hs h1)

/-- Full statement: the vector type that the program chooses for a `DM` is kept when the `DM` is set up. -/
def C101_type_choice_full : Prop := ∀ (ops : List Op) (s s1 s2 : State) (d dof dim : Nat) (t : String) (v m : Option String),
  Proper true init ops → run init ops = some s → step s (.dmSetVecType d t) = .done s1 →
  step s1 (.dmSetUp d dof dim v m true) = .done s2 → ∃ x, liveD s2 d = some x ∧ x.vtype = some t

/-- It is not: `DMSetUp_IGA` overwrites it with the IGA's (petigadm.c:230). -/
theorem C101_type_choice_refuted : ¬ C101_type_choice_full := by
  intro h
  have hp : Proper true init [.igaCreate 1 2 0, .dmCreate 0 true] := by
    simp [Proper, Legal, step, init, newIga, bump, liveI, putI, createFrom, refI, allocD, newDm, Out.andThen]
  obtain ⟨s, hs⟩ : ∃ s, run init [.igaCreate 1 2 0, .dmCreate 0 true] = some s := by
    simp [run, step, init, newIga, bump, liveI, putI, createFrom, refI, allocD, newDm, Out.andThen]
  have hs' := hs
  simp [run, step, init, newIga, bump, liveI, putI, createFrom, refI, allocD, newDm, Out.andThen] at hs'
  have hx : ∃ s1 s2, step s (.dmSetVecType 0 "cuda") = .done s1 ∧ step s1 (.dmSetUp 0 1 2 none none true) = .done s2 ∧
      ∀ x, liveD s2 0 = some x → x.vtype ≠ some "cuda" := by
    rw [← hs']
    refine ⟨_, _, rfl, rfl, ?_⟩
    intro x hx
    simp [liveD, putD, liveI, putI] at hx
    rw [← hx]
    simp
  obtain ⟨s1, s2, h1, h2, h3⟩ := hx
  obtain ⟨x, hx, ht⟩ := h _ s s1 s2 0 1 2 "cuda" none none hp hs h1 h2
  exact h3 x hx ht

/-- Full statement: a derived `DM` creates vectors and matrices of the original's types. -/
def C101_derived_types_full : Prop := ∀ (ops : List Op) (s s' : State) (d : Nat) (m mn : Dm),
  Proper true init ops → run init ops = some s → liveD s d = some m → step s (.dmDerive d .clone true) = .done s' →
  liveD s' s.dms.length = some mn → mn.vtype = m.vtype ∧ mn.mtype = m.mtype

/-- It does not: `IGAClone` does not copy the types (petiga.c:1495-1565). -/
theorem C101_derived_types_refuted : ¬ C101_derived_types_full := by
  intro h
  have hp : Proper true init [.igaCreate 1 2 0, .igaSetMatType 0 "is", .igaSetUp 0 true, .dmCreate 0 true] := by
    simp [Proper, Legal, step, init, newIga, bump, setUpI, liveI, putI, defaultName, createFrom, refI, allocD, setMatTypeI, ownName,
      newDm, setUpD, liveD, ensureIga, copyFrom, readName, markSetUp, putD, Out.andThen]
  obtain ⟨s, hs⟩ : ∃ s, run init [.igaCreate 1 2 0, .igaSetMatType 0 "is", .igaSetUp 0 true, .dmCreate 0 true] = some s := by
    simp [run, step, init, newIga, bump, setUpI, liveI, putI, defaultName, createFrom, refI, allocD, setMatTypeI, ownName,
      newDm, setUpD, liveD, ensureIga, copyFrom, readName, markSetUp, putD, Out.andThen]
  have hs' := hs
  simp [run, step, init, newIga, bump, setUpI, liveI, putI, defaultName, createFrom, refI, allocD, setMatTypeI, ownName,
      newDm, setUpD, liveD, ensureIga, copyFrom, readName, markSetUp, putD, Out.andThen] at hs'
  obtain ⟨m, g, hm, hi, hg, hset, hmt⟩ : ∃ m g, liveD s 0 = some m ∧ m.iga = some 0 ∧ liveI s 0 = some g ∧ g.setup = true ∧
      m.mtype = some "is" ∧ g.dof = 1 := by
    rw [← hs']
    simp [liveD, liveI]
  obtain ⟨gn, mn, he, _, _, _, _, hf, _, _, _, _, _, _, _, _, _, _, ht⟩ :=
    C101_derived s 0 0 m g .clone hm hi hg hset (by show 0 < g.dof; omega)
  have := h _ s _ 0 m mn hp hs hm he (liveD_of (by simp) hf)
  have h2 := this.2
  rw [ht, hmt.1] at h2
  have : ¬ 1 < fieldsWanted g.dof g.dim g.nsd .clone := by show ¬ 1 < g.dof; omega
  simp [this] at h2

/-! ### A program -/

/-- An IGA and a `DM` that shares it; the program gives up the IGA, creates a vector and a matrix of its own choice, a `DM` for the
coordinates, and gives everything up in an unusual order. -/
def exProgram : List Op :=
  [.igaCreate 2 3 3, .dmCreate 0 true, .dmSetUp 0 0 0 none none true, .igaDestroy 0, .dmSetMatType 0 "is", .dmMake 0 .vec true,
   .dmMake 0 .mat true, .dmDerive 0 .coord true, .dmDestroy 0, .destroy 0]

/-- It follows the rules, so its behaviour is defined. -/
theorem exProgram_proper : Proper true init exProgram := by
  simp [exProgram, Proper, Legal, step, init, newIga, bump, setUpI, liveI, putI, defaultName, createFrom, refI, allocD,
      newDm, setUpD, liveD, ensureIga, copyFrom, readName, markSetUp, putD, Out.andThen, createD, lend, typeOf, withName,
      createI, nameOf, drop, destroyD, destroyI, restore, attach, refD, deriveD, cloneI, Derived.dof, destroyO]

example : run init exProgram ≠ none := C101_defined_partial exProgram exProgram_proper

/-- At its end the matrix keeps both the first `DM` and the first IGA alive, although the program owns neither. -/
example : ∃ s m g, run init exProgram = some s ∧ s.heldI 0 = 0 ∧ s.heldD 0 = 0 ∧ liveD s 0 = some m ∧ liveI s 0 = some g ∧
    g.refct = 2 ∧ m.refct = 1 ∧ s.objs.map (fun b => (b.freed, b.type, b.bs)) = [(true, "standard", 2), (false, "is", 2)] ∧
    g.mtype = some ⟨"baij", none⟩ ∧ s.dms.length = 2 := by
  simp [exProgram, run, step, init, newIga, bump, setUpI, liveI, putI, defaultName, createFrom, refI, allocD,
      newDm, setUpD, liveD, ensureIga, copyFrom, readName, markSetUp, putD, Out.andThen, createD, lend, typeOf, withName,
      createI, nameOf, drop, destroyD, destroyI, restore, attach, refD, deriveD, cloneI, Derived.dof, destroyO]

end PetIGA.DMI
