import Verif.Model.Wire
import Mathlib.Tactic.SplitIfs
import Mathlib.Tactic.Common
/-
The solvers made from an IGA prepare their preconditioners with its data (C114).
-/
set_option linter.unusedSectionVars false
namespace PetIGA.Wir

/-! ### Specification -/

/-- The preconditioner `pc` has the data of the IGA `g` that its type needs: `L` is the number of multigrid levels the program had
chosen before the options `o` were processed (at most 1 if none). -/
structure Prepared (E : Env) (o : Opts) (g : Nat) (L : Int) (pc : PC) : Prop where
  galerkin : pc.type = .mg → o.mgGalerkin = false → pc.galerkin = true
  grid : pc.type = .mg → o.mgLevels ≠ some 1 → pc.dm = some (.da g)
  one : pc.type = .mg → o.mgLevels = some 1 → pc.levels = 1
  given : ∀ k, pc.type = .mg → o.mgLevels = some k → 1 < k → pc.levels = k
  kept : pc.type = .mg → o.mgLevels = none → 1 < L → pc.levels = L
  automatic : pc.type = .mg → o.mgLevels = none → L ≤ 1 → pc.levels = (MG.levels (E.nodes g) (E.periodic g) (E.procs g)).length
  bddc : pc.type = .bddc → pc.bddc = some g
  h2opus : pc.type = .h2opus → pc.coords = some g

/-- The operators a program set last. -/
def lastOps : List Act → Option (Mat × Mat) → Option (Mat × Mat)
  | [], x => x
  | .setOperators A B :: as, _ => lastOps as (some (A, B))
  | _ :: as, x => lastOps as x

/-- The type a program chose last, by a call or by an option. -/
def lastType : List Act → PCType → PCType
  | [], t => t
  | .setPCType t :: as, _ => lastType as t
  | .fromOptions o :: as, t => lastType as (o.pcType.getD t)
  | _ :: as, t => lastType as t

/-! ### The handlers -/

theorem prepareMG_fields (E : Env) (o : Opts) (g : Nat) (pc : PC) :
    (prepareMG E o g pc).type = pc.type ∧ (prepareMG E o g pc).composed = pc.composed ∧ (prepareMG E o g pc).ops = pc.ops ∧
    (prepareMG E o g pc).handler = pc.handler ∧ ((prepareMG E o g pc).dm = pc.dm ∨ (prepareMG E o g pc).dm = some (.da g)) := by
  unfold prepareMG
  dsimp only
  split_ifs <;> simp

theorem prepareMG_mg {E : Env} {o : Opts} {g : Nat} {pc : PC} {L : Int} (ht : pc.type = .mg) (hL : pc.levels = o.mgLevels.getD L) :
    Prepared E o g L (prepareMG E o g pc) := by
  obtain ⟨t, c, d, ops, h, gal, lv, b, co⟩ := pc
  dsimp only at ht hL
  subst ht hL
  obtain ⟨ty, ml, mg, fe⟩ := o
  rcases ml with _ | k
  · by_cases h1 : L ≤ 1
    · have e : prepareMG E ⟨ty, none, mg, fe⟩ g ⟨.mg, c, d, ops, h, gal, L, b, co⟩ = ⟨.mg, c, some (.da g), ops, h, if mg then gal else true,
          (MG.levels (E.nodes g) (E.periodic g) (E.procs g)).length, b, co⟩ := by simp [prepareMG, h1]
      simp only [Option.getD_none]
      rw [e]
      constructor <;> simp
      · intro h2; simp [h2]
      · intro h2; omega
    · have e : prepareMG E ⟨ty, none, mg, fe⟩ g ⟨.mg, c, d, ops, h, gal, L, b, co⟩ = ⟨.mg, c, some (.da g), ops, h, if mg then gal else true,
          L, b, co⟩ := by simp [prepareMG, h1]
      simp only [Option.getD_none]
      rw [e]
      constructor <;> simp
      · intro h2; simp [h2]
      · intro h2; omega
  · simp only [Option.getD_some]
    by_cases h1 : k = 1
    · have e : prepareMG E ⟨ty, some k, mg, fe⟩ g ⟨.mg, c, d, ops, h, gal, k, b, co⟩ = ⟨.mg, c, d, ops, h, if mg then gal else true,
          k, b, co⟩ := by simp [prepareMG, h1]
      rw [e]
      constructor <;> simp [h1]
      · intro h2; simp [h2]
    · by_cases h3 : k ≤ 1
      · have e : prepareMG E ⟨ty, some k, mg, fe⟩ g ⟨.mg, c, d, ops, h, gal, k, b, co⟩ = ⟨.mg, c, some (.da g), ops, h, if mg then gal else true,
            (MG.levels (E.nodes g) (E.periodic g) (E.procs g)).length, b, co⟩ := by simp [prepareMG, h1, h3]
        rw [e]
        constructor <;> simp [h1]
        · intro h2; simp [h2]
        · intro h2; omega
      · have e : prepareMG E ⟨ty, some k, mg, fe⟩ g ⟨.mg, c, d, ops, h, gal, k, b, co⟩ = ⟨.mg, c, some (.da g), ops, h, if mg then gal else true,
            k, b, co⟩ := by simp [prepareMG, h1, h3]
        rw [e]
        constructor <;> simp [h1]
        · intro h2; simp [h2]
        
theorem handlerPC_prepared {E : Env} {o : Opts} {g : Nat} {pc : PC} {L : Int} (hs : E.setup g = true)
    (hf : find pc.composed pc.dm pc.ops = some g) (hL : pc.type = .mg → pc.levels = o.mgLevels.getD L) :
    ∃ pc', handlerPC E o pc = .ok pc' ∧ pc'.type = pc.type ∧ Prepared E o g L pc' := by
  unfold handlerPC
  rw [hf]
  dsimp only
  obtain ⟨t, c, d, ops, h, gal, lv, b, co⟩ := pc
  dsimp only at hL
  cases t
  · refine ⟨prepareMG E o g _, ?_, (prepareMG_fields _ _ _ _).1, prepareMG_mg rfl (hL rfl)⟩
    simp only [prepareBDDC, prepareH2OPUS, hs, not_true, if_false, (prepareMG_fields _ _ _ _).1, reduceCtorEq]
    show Res.bind (Res.ok _) _ = _
    simp [Res.bind, (prepareMG_fields _ _ _ _).1]
  · refine ⟨⟨.bddc, c, d, ops, h, gal, lv, some g, co⟩, ?_, rfl, ?_⟩
    · simp [prepareMG, prepareBDDC, prepareH2OPUS, hs]
    · constructor <;> simp
  · refine ⟨⟨.h2opus, c, d, ops, h, gal, lv, b, some g⟩, ?_, rfl, ?_⟩
    · simp [prepareMG, prepareBDDC, prepareH2OPUS, hs]
    · constructor <;> simp
  · refine ⟨⟨.other, c, d, ops, h, gal, lv, b, co⟩, ?_, rfl, ?_⟩
    · simp [prepareMG, prepareBDDC, prepareH2OPUS, hs]
    · constructor <;> simp

theorem pcFromOptions_prepared {E : Env} {o : Opts} {g : Nat} {pc : PC} (hs : E.setup g = true) (hh : pc.handler = true)
    (hf : find pc.composed pc.dm pc.ops = some g) :
    ∃ pc', pcFromOptions E o pc = .ok pc' ∧ pc'.type = o.pcType.getD pc.type ∧ Prepared E o g pc.levels pc' := by
  unfold pcFromOptions
  simp only [hh, if_true]
  exact handlerPC_prepared hs hf (by intro h; dsimp only at h ⊢; rw [if_pos h])

/-- What a handler changes. -/
theorem handlerPC_fields {E : Env} {o : Opts} {pc pc' : PC} (h : handlerPC E o pc = .ok pc') :
    pc'.type = pc.type ∧ pc'.composed = pc.composed ∧ pc'.ops = pc.ops ∧ pc'.handler = pc.handler ∧
    (pc'.dm = pc.dm ∨ ∃ g, pc'.dm = some (.da g)) := by
  unfold handlerPC at h
  split at h
  · simp only [Res.ok.injEq] at h; subst h; simp
  · rename_i g _
    obtain ⟨a, b, c, d, e⟩ := prepareMG_fields E o g pc
    generalize prepareMG E o g pc = q at h a b c d e
    dsimp only at h
    rw [Res.bind_eq_ok] at h
    obtain ⟨q', h1, h2⟩ := h
    unfold prepareBDDC at h1
    unfold prepareH2OPUS at h2
    split_ifs at h1 h2 <;> simp only [Res.ok.injEq] at h1 h2 <;> subst h1 h2 <;> refine ⟨a, b, c, d, ?_⟩ <;>
      rcases e with e | e <;> simp [e]

theorem pcFromOptions_fields {E : Env} {o : Opts} {pc pc' : PC} (h : pcFromOptions E o pc = .ok pc') :
    pc'.type = o.pcType.getD pc.type ∧ pc'.composed = pc.composed ∧ pc'.ops = pc.ops ∧ pc'.handler = pc.handler ∧
    (pc'.dm = pc.dm ∨ ∃ g, pc'.dm = some (.da g)) := by
  unfold pcFromOptions at h
  dsimp only at h
  by_cases hc : pc.handler = true
  · rw [if_pos hc] at h; exact handlerPC_fields h
  · rw [if_neg hc] at h; simp only [Res.ok.injEq] at h; subst h; simp

theorem kspFromOptions_fields {E : Env} {o : Opts} {ksp ksp' : KSP} (h : kspFromOptions E o ksp = .ok ksp') :
    pcFromOptions E o ksp.pc = .ok ksp'.pc ∧ ksp'.composed = ksp.composed ∧ ksp'.dm = ksp.dm ∧ ksp'.handler = ksp.handler ∧
    ksp'.fetidp = (ksp.fetidp || o.fetidp) ∧ ksp'.inner.type = ksp.inner.type := by
  unfold kspFromOptions at h
  rw [Res.bind_eq_ok] at h
  obtain ⟨pc, h1, h2⟩ := h
  dsimp only at h2
  split_ifs at h2
  · unfold handlerKSP at h2
    split at h2
    · simp only [Res.ok.injEq] at h2; subst h2; exact ⟨h1, rfl, rfl, rfl, rfl, rfl⟩
    · split_ifs at h2
      · rw [Res.bind_eq_ok] at h2
        obtain ⟨q, h3, h4⟩ := h2
        simp only [Res.ok.injEq] at h4
        subst h4
        refine ⟨h1, rfl, rfl, rfl, rfl, ?_⟩
        unfold prepareBDDC at h3
        split_ifs at h3 <;> simp only [Res.ok.injEq] at h3 <;> subst h3 <;> rfl
      · simp only [Res.ok.injEq] at h2; subst h2; exact ⟨h1, rfl, rfl, rfl, rfl, rfl⟩
  · simp only [Res.ok.injEq] at h2; subst h2; exact ⟨h1, rfl, rfl, rfl, rfl, rfl⟩

/-- A linear solver that belongs to `g`. -/
structure Mine (g : Nat) (ksp : KSP) : Prop where
  handler : ksp.handler = true
  pcHandler : ksp.pc.handler = true
  composed : ksp.composed = some g
  pcComposed : ksp.pc.composed = none
  dm : ∀ h, ksp.pc.dm = some (.iga h) → h = g
  inner : ksp.inner.type = .bddc

theorem mine_create (g : Nat) : Mine g (createKSP g) := ⟨rfl, rfl, rfl, rfl, (by intro h e; cases e), rfl⟩

theorem mine_set (g : Nat) (ksp : KSP) (h : ksp.pc.composed = none) (hi : ksp.inner.type = .bddc) : Mine g (setKSP g ksp) :=
  ⟨rfl, rfl, rfl, h, by intro h' e; cases e; rfl, hi⟩

theorem step_mine {E : Env} {g : Nat} {ksp ksp' : KSP} {a : Act} (m : Mine g ksp) (ha : ∀ h, a = .setDM (.iga h) → h = g)
    (h : step E ksp a = .ok ksp') : Mine g ksp' ∧ ksp'.pc.ops = lastOps [a] ksp.pc.ops ∧ ksp'.pc.type = lastType [a] ksp.pc.type := by
  cases a with
  | setOperators A B => simp only [step, Res.ok.injEq] at h; subst h; exact ⟨⟨m.1, m.2, m.3, m.4, m.5, m.6⟩, rfl, rfl⟩
  | setDM d =>
    simp only [step, Res.ok.injEq] at h; subst h
    refine ⟨⟨m.1, m.2, m.3, m.4, ?_, m.6⟩, rfl, rfl⟩
    intro h' e
    simp only [kspSetDM, Option.some.injEq] at e
    exact ha h' (by rw [e])
  | setPCType t => simp only [step, Res.ok.injEq] at h; subst h; exact ⟨⟨m.1, m.2, m.3, m.4, m.5, m.6⟩, rfl, rfl⟩
  | fromOptions o =>
    simp only [step] at h
    obtain ⟨a1, a2, a3, a4, a5, a6⟩ := kspFromOptions_fields h
    obtain ⟨b1, b2, b3, b4, b5⟩ := pcFromOptions_fields a1
    refine ⟨⟨by rw [a4, m.1], by rw [b4, m.2], by rw [a2, m.3], by rw [b2, m.4], ?_, by rw [a6, m.6]⟩, b3, b1⟩
    intro h' e
    rcases b5 with b5 | ⟨g', b5⟩
    · exact m.dm h' (by rw [← b5, e])
    · rw [b5] at e; cases e

theorem run_mine {E : Env} {g : Nat} : ∀ {acts : List Act} {ksp ksp' : KSP}, Mine g ksp → (∀ h, .setDM (.iga h) ∈ acts → h = g) →
    run E ksp acts = .ok ksp' → Mine g ksp' ∧ ksp'.pc.ops = lastOps acts ksp.pc.ops ∧ ksp'.pc.type = lastType acts ksp.pc.type
  | [], ksp, ksp', m, _, h => by
    simp only [run, Res.ok.injEq] at h; subst h; exact ⟨m, rfl, rfl⟩
  | a :: as, ksp, ksp', m, ha, h => by
    unfold run at h
    rw [Res.bind_eq_ok] at h
    obtain ⟨k, h1, h2⟩ := h
    obtain ⟨m1, o1, t1⟩ := step_mine m (fun h e => ha h (by simp [e])) h1
    obtain ⟨m2, o2, t2⟩ := run_mine m1 (fun h e => ha h (by simp [e])) h2
    refine ⟨m2, ?_, ?_⟩
    · rw [o2, o1]; cases a <;> rfl
    · rw [t2, t1]; cases a <;> rfl

/-- If the IGA can be found from the DM or the operators, options prepare the solver. -/
theorem options_prepared' {E : Env} {g : Nat} {ksp : KSP} (o : Opts) (hh : ksp.handler = true) (hp : ksp.pc.handler = true) (hin : ksp.inner.type = .bddc)
    (hs : E.setup g = true) (hf : find ksp.pc.composed ksp.pc.dm ksp.pc.ops = some g) (hk : find ksp.composed ksp.dm ksp.pc.ops = some g) :
    ∃ ksp', kspFromOptions E o ksp = .ok ksp' ∧ ksp'.pc.type = o.pcType.getD ksp.pc.type ∧ Prepared E o g ksp.pc.levels ksp'.pc ∧
      (ksp'.fetidp = true → ksp'.inner.bddc = some g ∧ ksp'.inner.ops = ksp.pc.ops) := by
  obtain ⟨pc, h1, h2, h3⟩ := pcFromOptions_prepared (o := o) hs hp hf
  have h4 := (pcFromOptions_fields h1).2.2.1
  obtain ⟨k2, hk2⟩ : ∃ k2 : KSP, k2 = { ksp with pc := pc, fetidp := ksp.fetidp || o.fetidp } := ⟨_, rfl⟩
  have e : kspFromOptions E o ksp = handlerKSP E k2 := by
    unfold kspFromOptions
    rw [h1]
    show (if ksp.handler = true then _ else _) = _
    rw [if_pos hh, hk2]
  have e2 : find k2.composed k2.dm k2.pc.ops = some g := by rw [hk2]; dsimp only; rw [h4]; exact hk
  have e3 : k2.inner.type = .bddc := by rw [hk2]; exact hin
  rw [e]
  unfold handlerKSP
  rw [e2]
  dsimp only
  by_cases hc : k2.fetidp = true
  · rw [if_pos hc]
    refine ⟨{ k2 with inner := { k2.inner with ops := k2.pc.ops, bddc := some g } }, ?_, ?_, ?_, fun _ => ⟨rfl, ?_⟩⟩
    · simp [prepareBDDC, hs, e3]
    · rw [hk2]; exact h2
    · rw [hk2]; exact h3
    · rw [hk2]; exact h4
  · rw [if_neg hc]
    refine ⟨k2, rfl, ?_, ?_, fun h => absurd h hc⟩
    · rw [hk2]; exact h2
    · rw [hk2]; exact h3

theorem options_prepared {E : Env} {g : Nat} {ksp : KSP} (o : Opts) (m : Mine g ksp) (hs : E.setup g = true)
    (hf : find ksp.pc.composed ksp.pc.dm ksp.pc.ops = some g) :
    ∃ ksp', kspFromOptions E o ksp = .ok ksp' ∧ ksp'.pc.type = o.pcType.getD ksp.pc.type ∧ Prepared E o g ksp.pc.levels ksp'.pc ∧
      (ksp'.fetidp = true → ksp'.inner.bddc = some g ∧ ksp'.inner.ops = ksp.pc.ops) :=
  options_prepared' o m.handler m.pcHandler m.inner hs hf (by rw [m.composed]; rfl)

/-! ### Linear solvers -/

/-- **C114**, `IGACreateKSP`: whatever a program does with a linear solver created from the IGA `g` (operators, DMs that are not
those of another IGA, types and options, in any order), whenever options are processed after it has set operators of which
the preconditioning matrix was made by `IGACreateMat`, the preconditioner chosen by then is prepared with the data of `g`;
so is the inner BDDC preconditioner of FETI-DP. -/
theorem C114_operators_partial {E : Env} {g : Nat} {acts : List Act} {ksp : KSP} (h : run E (createKSP g) acts = .ok ksp)
    (hdm : ∀ h, .setDM (.iga h) ∈ acts → h = g) {A B : Mat} (hops : lastOps acts none = some (A, B)) (hB : B.iga = some g)
    (hs : E.setup g = true) (o : Opts) :
    ∃ ksp', kspFromOptions E o ksp = .ok ksp' ∧ ksp'.pc.type = o.pcType.getD (lastType acts .other) ∧ Prepared E o g ksp.pc.levels ksp'.pc ∧
      (ksp'.fetidp = true → ksp'.inner.bddc = some g ∧ ksp'.inner.ops = some (A, B)) := by
  obtain ⟨m, o1, t1⟩ := run_mine (mine_create g) hdm h
  have e1 : ksp.pc.ops = some (A, B) := by rw [o1]; exact hops
  have e2 : ksp.pc.type = lastType acts .other := t1
  rw [← e2, ← e1]
  refine options_prepared o m hs ?_
  rw [m.pcComposed, e1]
  unfold find
  have md := m.dm
  rcases hd : ksp.pc.dm with _ | d
  · simp [hB]
  · cases d with
    | iga h' => simp [md h' hd]
    | da h' => simp [hB]
    | other => simp [hB]

/-- **C114**, `KSPSetIGA`: the preconditioner is prepared the first time options are processed, with or without operators, in every
solver that had no IGA of its own. -/
theorem C114_set {E : Env} {g : Nat} {ksp0 ksp : KSP} (h0 : ksp0.pc.composed = none) (hi : ksp0.inner.type = .bddc) {acts : List Act}
    (hdm : ∀ d, .setDM d ∉ acts) (hopt : ∀ o, .fromOptions o ∉ acts) (h : run E (setKSP g ksp0) acts = .ok ksp) (hs : E.setup g = true) (o : Opts) :
    ∃ ksp', kspFromOptions E o ksp = .ok ksp' ∧ ksp'.pc.type = o.pcType.getD (lastType acts ksp0.pc.type) ∧ Prepared E o g ksp.pc.levels ksp'.pc ∧
      (ksp'.fetidp = true → ksp'.inner.bddc = some g ∧ ksp'.inner.ops = lastOps acts ksp0.pc.ops) := by
  obtain ⟨m, o1, t1⟩ := run_mine (mine_set g ksp0 h0 hi) (fun h e => absurd e (hdm _)) h
  have hd : ksp.pc.dm = some (.iga g) := by
    have : ∀ (acts : List Act) (k : KSP), (∀ d, .setDM d ∉ acts) → (∀ o, .fromOptions o ∉ acts) → k.pc.dm = some (.iga g) →
        run E k acts = .ok ksp → ksp.pc.dm = some (.iga g) := by
      intro acts
      induction acts with
      | nil => intro k _ _ hk h; simp only [run, Res.ok.injEq] at h; subst h; exact hk
      | cons a as ih =>
        intro k h1 h2 hk h
        unfold run at h
        rw [Res.bind_eq_ok] at h
        obtain ⟨k', h3, h4⟩ := h
        refine ih k' (fun d e => h1 d (by simp [e])) (fun o e => h2 o (by simp [e])) ?_ h4
        cases a with
        | setOperators A B => simp only [step, Res.ok.injEq] at h3; subst h3; exact hk
        | setPCType t => simp only [step, Res.ok.injEq] at h3; subst h3; exact hk
        | setDM d => exact absurd (by simp) (h1 d)
        | fromOptions o => exact absurd (by simp) (h2 o)
    exact this acts _ hdm hopt rfl h
  have e1 : ksp.pc.ops = lastOps acts ksp0.pc.ops := o1
  have e2 : ksp.pc.type = lastType acts ksp0.pc.type := t1
  rw [← e2, ← e1]
  refine options_prepared o m hs ?_
  rw [m.pcComposed, hd]
  rfl

/-- **C114**, refuted: the IGA is composed with the solver but looked for at the preconditioner, so when options are processed before
the operators are set, a multigrid preconditioner chosen by them stays without grids, for every IGA. -/
theorem C114_order_refuted (E : Env) (g : Nat) (A : Mat) : ∃ ksp, run E (createKSP g) [.fromOptions ⟨some .mg, none, false, false⟩, .setOperators A A] = .ok ksp ∧
    ksp.pc.type = .mg ∧ ksp.pc.dm = none ∧ ksp.pc.levels = 0 ∧ ksp.pc.galerkin = false := ⟨_, rfl, rfl, rfl, rfl, rfl⟩

/-- **C114**, refuted for a second processing of options after `KSPSetIGA`: the multigrid preparation replaces the DM by which the
IGA is found, so a later change to BDDC is not prepared if there are no operators yet. -/
theorem C114_again_refuted (E : Env) (g : Nat) (hs : E.setup g = true) : ∃ ksp,
    run E (setKSP g kspCreate) [.fromOptions ⟨some .mg, none, false, false⟩, .fromOptions ⟨some .bddc, none, false, false⟩] = .ok ksp ∧
    ksp.pc.type = .bddc ∧ ksp.pc.bddc = none := by
  refine ⟨_, by simp [run, step, kspFromOptions, pcFromOptions, setKSP, handlers, kspSetDM, kspCreate, pcCreate, handlerPC, find, prepareMG, prepareBDDC, prepareH2OPUS, handlerKSP, hs]; rfl, rfl, rfl⟩

/-- **C114**: without a handler's IGA nothing but PETSc's own settings change: a preconditioner that has nothing to do with an IGA
is left alone. -/
theorem C114_foreign (E : Env) (o : Opts) (pc : PC) (h1 : pc.composed = none) (h2 : ∀ g, pc.dm ≠ some (.iga g))
    (h3 : ∀ A B, pc.ops = some (A, B) → B.iga = none) : handlerPC E o pc = .ok pc := by
  have : find pc.composed pc.dm pc.ops = none := by
    rw [h1]
    unfold find
    rcases hd : pc.dm with _ | d
    · rcases ho : pc.ops with _ | ⟨A, B⟩
      · rfl
      · exact h3 A B ho
    · cases d with
      | iga g => exact absurd hd (h2 g)
      | da g =>
        rcases ho : pc.ops with _ | ⟨A, B⟩
        · rfl
        · exact h3 A B ho
      | other =>
        rcases ho : pc.ops with _ | ⟨A, B⟩
        · rfl
        · exact h3 A B ho
  simp [handlerPC, this]

/-! ### Nonlinear solvers and time steppers -/

/-- **C114**, inner solvers, after `SNESSetIGA` and `TSSetIGA`: the preconditioner of the inner linear solver is prepared when the options
of the outer solver are processed, whether or not PETSc knows the matrix by then. -/
theorem C114_inner {E : Env} {g : Nat} (early : Bool) (s : SNES) (t : TS) (h0 : s.ksp.pc.composed = none ∧ s.ksp.composed = none)
    (hi : s.ksp.inner.type = .bddc) (ht0 : t.snes.ksp.pc.composed = none ∧ t.snes.ksp.composed = none) (hti : t.snes.ksp.inner.type = .bddc)
    (hs : E.setup g = true) (o : Opts) :
    (∃ s', snesFromOptions early E o (setSNES g s) = .ok s' ∧ s'.ksp.pc.type = o.pcType.getD s.ksp.pc.type ∧
      Prepared E o g s.ksp.pc.levels s'.ksp.pc) ∧
    (∃ t', tsFromOptions early E o (setTS g t) = .ok t' ∧ t'.snes.ksp.pc.type = o.pcType.getD t.snes.ksp.pc.type ∧
      Prepared E o g t.snes.ksp.pc.levels t'.snes.ksp.pc) := by
  have key : ∀ s1 : SNES, s1.ksp.pc.composed = none → s1.ksp.composed = none → s1.ksp.handler = true → s1.ksp.pc.handler = true →
      s1.ksp.inner.type = .bddc → s1.ksp.pc.dm = some (.iga g) → s1.ksp.dm = some (.iga g) →
      ∃ s', snesFromOptions early E o s1 = .ok s' ∧ s'.ksp.pc.type = o.pcType.getD s1.ksp.pc.type ∧ Prepared E o g s1.ksp.pc.levels s'.ksp.pc := by
    intro s1 a b c d e f f'
    unfold snesFromOptions
    have done : ∀ k : KSP, k.pc.composed = none → k.composed = none → k.handler = true → k.pc.handler = true →
        k.inner.type = .bddc → k.pc.dm = some (.iga g) → k.dm = some (.iga g) → k.pc.type = s1.ksp.pc.type → k.pc.levels = s1.ksp.pc.levels →
        ∃ s', (kspFromOptions E o k >>= fun ksp => Res.ok { s1 with ksp := ksp }) = .ok s' ∧
          s'.ksp.pc.type = o.pcType.getD s1.ksp.pc.type ∧ Prepared E o g s1.ksp.pc.levels s'.ksp.pc := by
      intro k a b c d e f f' x y
      obtain ⟨k', h1, h2, h3, -⟩ := options_prepared' (ksp := k) o c d e hs (by rw [a, f]; rfl) (by rw [b, f']; rfl)
      rw [h1, ← x, ← y]
      exact ⟨_, rfl, h2, h3⟩
    cases early
    · exact done s1.ksp a b c d e f f' rfl rfl
    · cases hm : s1.mat with
      | none => have := done s1.ksp a b c d e f f' rfl rfl; rw [hm] at this; exact this
      | some J => have := done (kspSetOperators J J s1.ksp) a b c d e f f' rfl rfl; rw [hm] at this; exact this
  refine ⟨key (setSNES g s) h0.1 h0.2 rfl rfl hi rfl rfl, ?_⟩
  obtain ⟨s', h1, h2, h3⟩ := key (setTS g t).snes ht0.1 ht0.2 rfl rfl hti rfl rfl
  refine ⟨{ setTS g t with snes := s' }, ?_, h2, h3⟩
  unfold tsFromOptions
  rw [h1]
  rfl

/-- **C114**, inner solvers, after `IGACreateSNES`: prepared if PETSc has given the matrix of the Jacobian to the inner solver
before the options are processed. -/
theorem C114_created_partial {E : Env} {g : Nat} (hs : E.setup g = true) (o : Opts) :
    ∃ s', snesFromOptions true E o (createSNES g) = .ok s' ∧ s'.ksp.pc.type = o.pcType.getD .other ∧ Prepared E o g 0 s'.ksp.pc := by
  obtain ⟨k', h1, h2, h3, -⟩ := options_prepared' (E := E) (g := g) (ksp := kspSetOperators ⟨some g⟩ ⟨some g⟩ (createSNES g).ksp) o rfl rfl rfl hs rfl rfl
  refine ⟨{ createSNES g with ksp := k' }, ?_, h2, h3⟩
  show (kspFromOptions E o (kspSetOperators ⟨some g⟩ ⟨some g⟩ (createSNES g).ksp) >>= _) = _
  rw [h1]
  rfl

/-- **C114**, refuted otherwise: `IGACreateSNES`, `IGACreateTS` and `IGACreateTS2` compose the IGA only with the outer solver, so a
multigrid preconditioner chosen in the options stays without grids. -/
theorem C114_created_refuted (E : Env) (g : Nat) :
    (∃ s, snesFromOptions false E ⟨some .mg, none, false, false⟩ (createSNES g) = .ok s ∧ s.ksp.pc.type = .mg ∧ s.ksp.pc.dm = none) ∧
    (∃ t, tsFromOptions false E ⟨some .mg, none, false, false⟩ (createTS g) = .ok t ∧ t.snes.ksp.pc.type = .mg ∧ t.snes.ksp.pc.dm = none) ∧
    (∃ t, tsFromOptions false E ⟨some .mg, none, false, false⟩ (createTS2 g) = .ok t ∧ t.snes.ksp.pc.type = .mg ∧ t.snes.ksp.pc.dm = none) :=
  ⟨⟨_, rfl, rfl, rfl⟩, ⟨_, rfl, rfl, rfl⟩, ⟨_, rfl, rfl, rfl⟩⟩

/-- **C114**, callbacks: every solver made from or connected with an IGA gets the callbacks meant for it (whose meaning is the subject of
C91), with that IGA as their context, and vectors and matrices of that IGA; second-order steppers get both kinds. -/
theorem C114_callbacks (g : Nat) (k : KSP) (s : SNES) (t : TS) :
    ((setKSP g k).rhs = some ⟨.kspRHS, g⟩ ∧ (setKSP g k).operators = some ⟨.kspOperators, g⟩) ∧
    (∀ s', s' = createSNES g ∨ s' = setSNES g s → s'.function = some ⟨.snesFunction, g⟩ ∧ s'.jacobian = some ⟨.snesJacobian, g⟩) ∧
    (∀ t', t' = createTS g ∨ t' = createTS2 g ∨ t' = setTS g t → t'.iFunction = some ⟨.tsIFunction, g⟩ ∧ t'.iJacobian = some ⟨.tsIJacobian, g⟩ ∧ t'.solution = some g) ∧
    (∀ t', t' = createTS2 g ∨ t' = setTS g t → t'.i2Function = some ⟨.tsI2Function, g⟩ ∧ t'.i2Jacobian = some ⟨.tsI2Jacobian, g⟩) ∧
    ((createTS2 g).alpha2 = true ∧ (createTS2 g).velocity = some g) ∧
    ((createSNES g).vec = some g ∧ (createSNES g).mat = some ⟨some g⟩ ∧ (createTS g).vec = some g ∧ (createTS g).mat = some ⟨some g⟩ ∧
      (createTS2 g).vec = some g ∧ (createTS2 g).mat = some ⟨some g⟩) := by
  refine ⟨⟨rfl, rfl⟩, ?_, ?_, ?_, ⟨rfl, rfl⟩, ⟨rfl, rfl, rfl, rfl, rfl, rfl⟩⟩
  · rintro s' (rfl | rfl) <;> exact ⟨rfl, rfl⟩
  · rintro t' (rfl | rfl | rfl) <;> exact ⟨rfl, rfl, rfl⟩
  · rintro t' (rfl | rfl) <;> exact ⟨rfl, rfl⟩

/-! ### The hypotheses are met -/

/-- An IGA that is set up: 33 × 17 nodes on 2 × 1 processes. -/
def exEnv : Env := ⟨fun _ => true, fun _ => [33, 17], fun _ => [false, false], fun _ => [2, 1]⟩

/-- Options before and after the operators: multigrid with the automatic number of levels. -/
example : ∃ ksp ksp', run exEnv (createKSP 0) [.setDM .other, .fromOptions ⟨none, none, false, false⟩, .setOperators ⟨some 0⟩ ⟨some 0⟩] = .ok ksp ∧
    lastOps [.setDM .other, .fromOptions ⟨none, none, false, false⟩, .setOperators ⟨some 0⟩ ⟨some 0⟩] none = some (⟨some 0⟩, ⟨some 0⟩) ∧
    kspFromOptions exEnv ⟨some .mg, none, false, false⟩ ksp = .ok ksp' ∧ ksp'.pc.dm = some (.da 0) ∧ ksp'.pc.levels = 4 ∧ ksp'.pc.galerkin = true :=
  ⟨_, _, rfl, rfl, rfl, by decide, by decide, by decide⟩

example : kspCreate.pc.composed = none ∧ kspCreate.inner.type = .bddc ∧ snesCreate.ksp.composed = none ∧ tsCreate.snes.ksp.pc.composed = none := by decide

end PetIGA.Wir
