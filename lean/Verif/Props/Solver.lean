import Verif.Model.Solver
import Verif.Props.GlobalDriver
import Verif.Props.BoundaryValue
/-
C90: the callbacks of a form are called with the context they were registered with.
C91: what the solvers of PETSc obtain from an IGA.
-/
set_option linter.unusedSectionVars false
namespace PetIGA.Sol
open PetIGA.Ax PetIGA.Lay PetIGA.Asm PetIGA.Drv PetIGA.Spec PetIGA.Grid PetIGA.Part

variable {C V P : Type}

/-! ### C90: registered callbacks -/

/-- Callbacks set by different routines whose contexts are kept in one place. -/
def sharing : Kind → Option Kind
  | .ifunction => some .i2function
  | .i2function => some .ifunction
  | .ijacobian => some .i2jacobian
  | .i2jacobian => some .ijacobian
  | _ => none

/-- The form after the calls `h`. -/
def after (null : C) (h : List (Reg C V P)) : Ops C V P := h.foldl register (create null)

theorem shared_slot (j k : Kind) : setSlot j = getSlot k ↔ j = k ∨ some j = sharing k := by
  cases j <;> cases k <;> decide

theorem fn_unchanged (h : List (Reg C V P)) (ops : Ops C V P) (k : Kind) (hk : ∀ r ∈ h, r.kind ≠ k) :
    (h.foldl register ops).fn k = ops.fn k := by
  induction h generalizing ops with
  | nil => rfl
  | cons r h ih =>
    rw [List.foldl_cons, ih _ fun r' hr' => hk r' (List.mem_cons_of_mem _ hr')]
    exact dif_neg (hk r (List.mem_cons_self ..))

theorem ctx_unchanged (h : List (Reg C V P)) (ops : Ops C V P) (s : Slot) (hk : ∀ r ∈ h, setSlot r.kind ≠ s) :
    (h.foldl register ops).ctx s = ops.ctx s := by
  induction h generalizing ops with
  | nil => rfl
  | cons r h ih =>
    rw [List.foldl_cons, ih _ fun r' hr' => hk r' (List.mem_cons_of_mem _ hr')]
    exact if_neg fun e => hk r (List.mem_cons_self ..) e.symm

theorem after_append (null : C) (pre post : List (Reg C V P)) (r : Reg C V P) :
    after null (pre ++ r :: post) = post.foldl register (register (after null pre) r) := by
  unfold after
  rw [List.foldl_append, List.foldl_cons]

/-- **C90.** After any sequence of calls of the setters, the callback used for a kind is the one set last and it
is called with the context given in that call – provided the setter sharing its context was not called since
(`sharing`: `IFunction` and `I2Function`, `IJacobian` and `I2Jacobian`). -/
theorem C90_callback_partial (null : C) (pre post : List (Reg C V P)) (k : Kind) (f : C → Body V P k) (c : C)
    (hlast : ∀ r ∈ post, r.kind ≠ k) (hshare : ∀ r ∈ post, some r.kind ≠ sharing k) (debug : Bool) :
    callback debug (after null (pre ++ ⟨k, some f, c⟩ :: post)) k = .ok (f c) := by
  rw [after_append]
  unfold callback
  rw [fn_unchanged post _ k hlast, ctx_unchanged post _ _ fun r hr e => by
    rcases (shared_slot _ _).1 e with h | h
    · exact hlast r hr h
    · exact hshare r hr h]
  have h1 : (register (after null pre) ⟨k, some f, c⟩).fn k = some f := dif_pos rfl
  have h2 : (register (after null pre) ⟨k, some f, c⟩).ctx (getSlot k) = c :=
    if_pos ((shared_slot k k).2 (Or.inl rfl)).symm
  rw [h1, h2]

/-- **C90**, the nine kinds with a context of their own: no condition on the other setters. -/
theorem C90_callback (null : C) (pre post : List (Reg C V P)) (k : Kind) (hk : sharing k = none) (f : C → Body V P k) (c : C)
    (hlast : ∀ r ∈ post, r.kind ≠ k) (debug : Bool) :
    callback debug (after null (pre ++ ⟨k, some f, c⟩ :: post)) k = .ok (f c) :=
  C90_callback_partial null pre post k f c hlast (fun r _ => by rw [hk]; simp) debug

/-- **C90.** A callback that was never set, or last set to `NULL`, is reported by every assembly routine – in
builds with `PETSC_USE_DEBUG`; others call a null pointer. -/
theorem C90_missing (null : C) (k : Kind) (h : List (Reg C V P)) (hk : (∀ r ∈ h, r.kind ≠ k) ∨
    ∃ pre c post, h = pre ++ ⟨k, none, c⟩ :: post ∧ ∀ r ∈ post, r.kind ≠ k) :
    callback true (after null h) k = .err .user ∧ callback false (after null h) k = .ub := by
  have : (after null h).fn k = none := by
    rcases hk with h0 | ⟨pre, c, post, rfl, h0⟩
    · exact fn_unchanged h _ k h0
    · rw [after_append, fn_unchanged post _ k h0]
      exact dif_pos rfl
  unfold callback
  rw [this]
  exact ⟨rfl, rfl⟩

/-- **C90 refuted.** `IGASetFormI2Function` overwrites the context of `IGASetFormIFunction` and the other way round, and so do
the setters of the Jacobians: the first callback is then called with the context of the second. -/
theorem C90_context_refuted (null : C) (k j : Kind) (hj : sharing k = some j) (f : C → Body V P k) (g : C → Body V P j) (c d : C)
    (debug : Bool) : callback debug (after null [⟨k, some f, c⟩, ⟨j, some g, d⟩]) k = .ok (f d) := by
  have hne : j ≠ k := by rintro rfl; cases j <;> simp [sharing] at hj
  unfold callback
  have h1 : (after null [⟨k, some f, c⟩, ⟨j, some g, d⟩]).fn k = some f := by
    show (register (register (create null) ⟨k, some f, c⟩) ⟨j, some g, d⟩).fn k = some f
    exact (dif_neg hne).trans (dif_pos rfl)
  have h2 : (after null [⟨k, some f, c⟩, ⟨j, some g, d⟩]).ctx (getSlot k) = d :=
    if_pos ((shared_slot j k).2 (Or.inr hj.symm)).symm
  rw [h1, h2]

/-- The four kinds concerned; the context handed to `IFunction` is the one registered for `I2Function`. -/
example : sharing .ifunction = some .i2function ∧ sharing .i2function = some .ifunction ∧ sharing .ijacobian = some .i2jacobian ∧
    sharing .i2jacobian = some .ijacobian := ⟨rfl, rfl, rfl, rfl⟩

example (g : Nat → Body ℚ Unit .i2function) :
    ∃ cb : Body ℚ Unit .ifunction, callback true (after (0:Nat) [⟨.ifunction, some fun (c : Nat) _ _ _ _ _ F => .ok fun i => F i + (c:ℚ), 1⟩, ⟨.i2function, some g, 2⟩]) .ifunction = .ok cb ∧
      (cb () 0 [] 0 [] fun _ => 0) = .ok fun _ => 0 + 2 := by
  refine ⟨_, C90_context_refuted (C := Nat) 0 .ifunction .i2function rfl _ g 1 2 true, ?_⟩
  dsimp only
  norm_num

/-- Two callbacks, the first set twice. -/
example (f f' : Nat → Body ℚ Unit .vector) (g : Nat → Body ℚ Unit .matrix) :
    callback true (after 0 [⟨.vector, some f, 1⟩, ⟨.vector, some f', 2⟩, ⟨.matrix, some g, 3⟩]) .vector = .ok (f' 2) :=
  C90_callback (C := Nat) 0 [⟨.vector, some f, 1⟩] [⟨.matrix, some g, 3⟩] .vector rfl f' 2 (by simp) true

example (f : Nat → Body ℚ Unit .vector) :
    callback true (after 0 [⟨.vector, some f, 1⟩, ⟨.vector, none, 1⟩]) .vector = .err .user :=
  (C90_missing (C := Nat) 0 .vector _ (Or.inr ⟨[⟨.vector, some f, 1⟩], 1, [], rfl, by simp⟩)).1

/-! ### C91: the functions called by the solvers -/

/-- The assembly routines call `cb` for this kind (C90). -/
def Given (ops : Ops C V P) (k : Kind) (cb : Body V P k) : Prop := ∀ debug, callback debug ops k = .ok cb

/-- No callback of this kind. -/
def Absent (ops : Ops C V P) (k : Kind) : Prop := ops.fn k = none

theorem Given.isSome {ops : Ops C V P} {k : Kind} {cb : Body V P k} (h : Given ops k cb) : (ops.fn k).isSome = true := by
  have := h true
  unfold callback at this
  cases hf : ops.fn k with
  | some _ => rfl
  | none => rw [hf] at this; simp at this

theorem Absent.isNone {ops : Ops C V P} {k : Kind} (h : Absent ops k) : ¬ (ops.fn k).isSome = true := by
  rw [h]; simp

theorem Absent.callback {ops : Ops C V P} {k : Kind} (h : Absent ops k) : callback true ops k = .err .user := by
  unfold Sol.callback; rw [h]; rfl

/-- The relation of the implicit integrators between a stage `u` and its rate: `v = v0 + shift (u - u0)`. -/
def stage (shift : ℝ) (v0 u0 u : List Int → Nat → ℝ) : List Int → Nat → ℝ := fun z c => v0 z c + shift * (u z c - u0 z c)

theorem stage_along (shift s : ℝ) (v0 u0 u w : List Int → Nat → ℝ) :
    stage shift v0 u0 (along u s w) = along (stage shift v0 u0 u) (s * shift) w := by
  funext z c
  simp only [stage, along]
  ring

section
variable {K : Type} [Field K] [LinearOrder K] [IsStrictOrderedRing K]

/-- **C91**, `IGASNESFormFunction` and `IGASNESFormJacobian`: Newton's method gets the exact derivative of its residual if the callbacks
are exact at every point. -/
theorem C91_snes (axes axs : List (Axis K)) (dof : Nat) (elt : List Int → Elt ℝ P) (hE : Elements axs dof elt) (ops : Ops C ℝ P)
    (cbR : Body ℝ P .function) (cbK : Body ℝ P .jacobian) (hr : Given ops .function cbR) (hk : Given ops .jacobian cbK)
    (R k : P → List ℝ → Int → ℝ)
    (hR : ∀ U, Fills (unknowns axs dof) (fun p => cbR p U) (fun p => R p U))
    (hK : ∀ U, Fills (unknowns axs dof * unknowns axs dof) (fun p => cbK p U) (fun p => k p U))
    (hD : ∀ p U W, U.length = unknowns axs dof → W.length = unknowns axs dof → ∀ i : Nat, i < unknowns axs dof →
      HasDerivAt (fun s => R p (axpy U s W) i) (rowTimes (unknowns axs dof) (k p U) i W) 0) :
    ∃ (f : (List Int → Nat → ℝ) → List Int → Nat → ℝ) (a : (List Int → Nat → ℝ) → List Int → Nat → List Int → Nat → ℝ),
      ∀ {g2 : Guess2} {g3 : Guess3} {size : Int} {procs : List Int} {Ls : List (Layout K)},
        Setup g2 g3 false size procs axes axs Ls →
        (∀ debug hist pw w jA jV jU vecU u, Represents axs Ls dof vecU u →
          (∃ F, snesFunction ⟨debug, Ls, hist, dof, ⟨elt, pw, w⟩, jA, jV, jU⟩ ops vecU = .ok F ∧ Represents axs Ls dof F (f u)) ∧
          ∃ J, snesJacobian ⟨debug, Ls, hist, dof, ⟨elt, pw, w⟩, jA, jV, jU⟩ ops vecU = .ok J ∧ RepresentsMat axs Ls dof J (a u)) ∧
        ∀ u w, IsDerivative axs dof (fun s => f (along u s w)) (a u) w := by
  obtain ⟨f, a, h⟩ := C78_function axes axs dof elt hE cbR cbK R k hR hK hD
  refine ⟨f, a, fun S => ⟨fun debug hist pw w jA jV jU vecU u hu => ?_, (h S).2⟩⟩
  unfold snesFunction snesJacobian
  rw [hr debug, hk debug]
  exact (h S).1 hist pw w vecU jU u hu

/-- **C91**, `IGATSFormIFunction` and `IGATSFormIJacobian`, callbacks set with `IGASetFormIFunction` and `IGASetFormIJacobian`.  The
residual callback is handed the shift 0, the Jacobian callback the shift of the integrator.  If at every point the latter returns
`∂R/∂U + shift ∂R/∂V`, the assembled Jacobian is the derivative, with respect to the stage `u`, of the residual
`F(t, v0 + shift (u - u0), u)` which the integrator solves for. -/
theorem C91_ts (axes axs : List (Axis K)) (dof : Nat) (elt : List Int → Elt ℝ P) (hE : Elements axs dof elt) (ops : Ops C ℝ P)
    (hie : Absent ops .iefunction)
    (cbR : Body ℝ P .ifunction) (cbK : Body ℝ P .ijacobian) (hr : Given ops .ifunction cbR) (hk : Given ops .ijacobian cbK)
    (R : P → List ℝ → ℝ → List ℝ → Int → ℝ) (k : P → ℝ → List ℝ → ℝ → List ℝ → Int → ℝ)
    (hR : ∀ X t U, Fills (unknowns axs dof) (fun p => cbR p 0 X t U) (fun p => R p X t U))
    (hK : ∀ a X t U, Fills (unknowns axs dof * unknowns axs dof) (fun p => cbK p a X t U) (fun p => k p a X t U))
    (hD : ∀ p a X t U W, X.length = unknowns axs dof → U.length = unknowns axs dof → W.length = unknowns axs dof → ∀ i : Nat, i < unknowns axs dof →
      HasDerivAt (fun s => R p (axpy X (s * a) W) t (axpy U s W) i) (rowTimes (unknowns axs dof) (k p a X t U) i W) 0) (shift t : ℝ) :
    ∃ (f : (List Int → Nat → ℝ) → (List Int → Nat → ℝ) → List Int → Nat → ℝ) (a : (List Int → Nat → ℝ) → (List Int → Nat → ℝ) → List Int → Nat → List Int → Nat → ℝ),
      ∀ {g2 : Guess2} {g3 : Guess3} {size : Int} {procs : List Int} {Ls : List (Layout K)},
        Setup g2 g3 false size procs axes axs Ls →
        (∀ debug hist pw w jA jV jU t0 vecU0 vecV vecU v u, Represents axs Ls dof vecV v → Represents axs Ls dof vecU u →
          (∃ F, tsIFunction ⟨debug, Ls, hist, dof, ⟨elt, pw, w⟩, jA, jV, jU⟩ ops t0 vecU0 t vecU vecV = .ok F ∧ Represents axs Ls dof F (f v u)) ∧
          ∃ J, tsIJacobian ⟨debug, Ls, hist, dof, ⟨elt, pw, w⟩, jA, jV, jU⟩ ops t0 vecU0 t vecU vecV shift = .ok J ∧ RepresentsMat axs Ls dof J (a v u)) ∧
        ∀ v0 u0 u w, IsDerivative axs dof (fun s => f (stage shift v0 u0 (along u s w)) (along u s w)) (a (stage shift v0 u0 u) u) w := by
  obtain ⟨f, a, h⟩ := C78_ifunction axes axs dof elt hE (fun p _ X t U => cbR p 0 X t U) cbK (fun p _ X t U => R p X t U) k
    (fun _ => hR) hK hD shift t
  refine ⟨f, a, fun S => ⟨fun debug hist pw w jA jV jU t0 vecU0 vecV vecU v u hv hu => ?_, fun v0 u0 u w => ?_⟩⟩
  · unfold tsIFunction tsIJacobian
    rw [if_neg hie.isNone, if_neg hie.isNone, hr debug, hk debug]
    exact (h S).1 hist pw w vecV vecU jV jU v u hv hu
  · simp only [stage_along]
    exact (h S).2 (stage shift v0 u0 u) u w

/-- **C91**, the same with callbacks set with `IGASetFormIEFunction` and `IGASetFormIEJacobian`, which take precedence: they also get
the solution `u0` at the start `t0` of the step. -/
theorem C91_ts_explicit (axes axs : List (Axis K)) (dof : Nat) (elt : List Int → Elt ℝ P) (hE : Elements axs dof elt) (ops : Ops C ℝ P)
    (cbR : Body ℝ P .iefunction) (cbK : Body ℝ P .iejacobian) (hr : Given ops .iefunction cbR) (hk : Given ops .iejacobian cbK)
    (R : P → List ℝ → ℝ → List ℝ → ℝ → List ℝ → Int → ℝ) (k : P → ℝ → List ℝ → ℝ → List ℝ → ℝ → List ℝ → Int → ℝ)
    (hR : ∀ X t U t0 U0, Fills (unknowns axs dof) (fun p => cbR p 0 X t U t0 U0) (fun p => R p X t U t0 U0))
    (hK : ∀ a X t U t0 U0, Fills (unknowns axs dof * unknowns axs dof) (fun p => cbK p a X t U t0 U0) (fun p => k p a X t U t0 U0))
    (hD : ∀ p a X t U t0 U0 W, X.length = unknowns axs dof → U.length = unknowns axs dof →
      U0.length = unknowns axs dof → W.length = unknowns axs dof → ∀ i : Nat, i < unknowns axs dof →
      HasDerivAt (fun s => R p (axpy X (s * a) W) t (axpy U s W) t0 U0 i) (rowTimes (unknowns axs dof) (k p a X t U t0 U0) i W) 0) (shift t t0 : ℝ) :
    ∃ (f : (List Int → Nat → ℝ) → (List Int → Nat → ℝ) → (List Int → Nat → ℝ) → List Int → Nat → ℝ) (a : (List Int → Nat → ℝ) → (List Int → Nat → ℝ) → (List Int → Nat → ℝ) → List Int → Nat → List Int → Nat → ℝ),
      ∀ {g2 : Guess2} {g3 : Guess3} {size : Int} {procs : List Int} {Ls : List (Layout K)},
        Setup g2 g3 false size procs axes axs Ls →
        (∀ debug hist pw w jA jV jU vecU0 vecV vecU u0 v u, Represents axs Ls dof vecU0 u0 → Represents axs Ls dof vecV v → Represents axs Ls dof vecU u →
          (∃ F, tsIFunction ⟨debug, Ls, hist, dof, ⟨elt, pw, w⟩, jA, jV, jU⟩ ops t0 vecU0 t vecU vecV = .ok F ∧ Represents axs Ls dof F (f v u u0)) ∧
          ∃ J, tsIJacobian ⟨debug, Ls, hist, dof, ⟨elt, pw, w⟩, jA, jV, jU⟩ ops t0 vecU0 t vecU vecV shift = .ok J ∧ RepresentsMat axs Ls dof J (a v u u0)) ∧
        ∀ v1 u1 u0 u w, IsDerivative axs dof (fun s => f (stage shift v1 u1 (along u s w)) (along u s w) u0) (a (stage shift v1 u1 u) u u0) w := by
  obtain ⟨f, a, h⟩ := C78_iefunction axes axs dof elt hE (fun p _ X t U t0 U0 => cbR p 0 X t U t0 U0) cbK (fun p _ X t U t0 U0 => R p X t U t0 U0) k
    (fun _ => hR) hK hD shift t t0
  refine ⟨f, a, fun S => ⟨fun debug hist pw w jA jV jU vecU0 vecV vecU u0 v u h0 hv hu => ?_, fun v1 u1 u0 u w => ?_⟩⟩
  · unfold tsIFunction tsIJacobian
    rw [if_pos hr.isSome, if_pos hr.isSome, hr debug, hk debug]
    exact (h S).1 hist pw w vecV vecU vecU0 jV jU jA v u u0 hv hu h0
  · simp only [stage_along]
    exact (h S).2 (stage shift v1 u1 u) u u0 w

/-- **C91**, `IGATSFormI2Function` and `IGATSFormI2Jacobian`, callbacks set with `IGASetFormI2Function` and `IGASetFormI2Jacobian`: rates and
accelerations of a stage are `v0 + shiftV (u - u0)` and `x0 + shiftA (u - u0)`. -/
theorem C91_ts2 (axes axs : List (Axis K)) (dof : Nat) (elt : List Int → Elt ℝ P) (hE : Elements axs dof elt) (ops : Ops C ℝ P)
    (cbR : Body ℝ P .i2function) (cbK : Body ℝ P .i2jacobian) (hr : Given ops .i2function cbR) (hk : Given ops .i2jacobian cbK)
    (R : P → List ℝ → List ℝ → ℝ → List ℝ → Int → ℝ) (k : P → ℝ → List ℝ → ℝ → List ℝ → ℝ → List ℝ → Int → ℝ)
    (hR : ∀ X Y t U, Fills (unknowns axs dof) (fun p => cbR p 0 X 0 Y t U) (fun p => R p X Y t U))
    (hK : ∀ a X b Y t U, Fills (unknowns axs dof * unknowns axs dof) (fun p => cbK p a X b Y t U) (fun p => k p a X b Y t U))
    (hD : ∀ p a X b Y t U W, X.length = unknowns axs dof → Y.length = unknowns axs dof →
      U.length = unknowns axs dof → W.length = unknowns axs dof → ∀ i : Nat, i < unknowns axs dof →
      HasDerivAt (fun s => R p (axpy X (s * a) W) (axpy Y (s * b) W) t (axpy U s W) i) (rowTimes (unknowns axs dof) (k p a X b Y t U) i W) 0)
    (shiftV shiftA t : ℝ) :
    ∃ (f : (List Int → Nat → ℝ) → (List Int → Nat → ℝ) → (List Int → Nat → ℝ) → List Int → Nat → ℝ) (a : (List Int → Nat → ℝ) → (List Int → Nat → ℝ) → (List Int → Nat → ℝ) → List Int → Nat → List Int → Nat → ℝ),
      ∀ {g2 : Guess2} {g3 : Guess3} {size : Int} {procs : List Int} {Ls : List (Layout K)},
        Setup g2 g3 false size procs axes axs Ls →
        (∀ debug hist pw w jA jV jU vecA vecV vecU x v u, Represents axs Ls dof vecA x → Represents axs Ls dof vecV v → Represents axs Ls dof vecU u →
          (∃ F, tsI2Function ⟨debug, Ls, hist, dof, ⟨elt, pw, w⟩, jA, jV, jU⟩ ops t vecU vecV vecA = .ok F ∧ Represents axs Ls dof F (f x v u)) ∧
          ∃ J, tsI2Jacobian ⟨debug, Ls, hist, dof, ⟨elt, pw, w⟩, jA, jV, jU⟩ ops t vecU vecV vecA shiftV shiftA = .ok J ∧ RepresentsMat axs Ls dof J (a x v u)) ∧
        ∀ x0 v0 u0 u w, IsDerivative axs dof (fun s => f (stage shiftA x0 u0 (along u s w)) (stage shiftV v0 u0 (along u s w)) (along u s w))
          (a (stage shiftA x0 u0 u) (stage shiftV v0 u0 u) u) w := by
  obtain ⟨f, a, h⟩ := C78_i2function axes axs dof elt hE (fun p _ X _ Y t U => cbR p 0 X 0 Y t U) cbK (fun p _ X _ Y t U => R p X Y t U) k
    (fun _ X _ Y => hR X Y) hK hD shiftA shiftV t
  refine ⟨f, a, fun S => ⟨fun debug hist pw w jA jV jU vecA vecV vecU x v u hx hv hu => ?_, fun x0 v0 u0 u w => ?_⟩⟩
  · unfold tsI2Function tsI2Jacobian
    rw [if_pos hr.isSome, if_pos hr.isSome, hr debug, hk debug]
    exact (h S).1 hist pw w vecA vecV vecU jA jV jU x v u hx hv hu
  · simp only [stage_along]
    exact (h S).2 (stage shiftA x0 u0 u) (stage shiftV v0 u0 u) u w

/-- **C91**, second order integrators without an `I2Function`: `IFunction` is evaluated with the accelerations in place of the rates, the
integrator solves `F(t, u'', u) = 0`; its Jacobian is still the derivative of its residual. -/
theorem C91_ts2_first_order (axes axs : List (Axis K)) (dof : Nat) (elt : List Int → Elt ℝ P) (hE : Elements axs dof elt) (ops : Ops C ℝ P)
    (hie : Absent ops .i2function)
    (cbR : Body ℝ P .ifunction) (cbK : Body ℝ P .ijacobian) (hr : Given ops .ifunction cbR) (hk : Given ops .ijacobian cbK)
    (R : P → List ℝ → ℝ → List ℝ → Int → ℝ) (k : P → ℝ → List ℝ → ℝ → List ℝ → Int → ℝ)
    (hR : ∀ X t U, Fills (unknowns axs dof) (fun p => cbR p 0 X t U) (fun p => R p X t U))
    (hK : ∀ a X t U, Fills (unknowns axs dof * unknowns axs dof) (fun p => cbK p a X t U) (fun p => k p a X t U))
    (hD : ∀ p a X t U W, X.length = unknowns axs dof → U.length = unknowns axs dof → W.length = unknowns axs dof → ∀ i : Nat, i < unknowns axs dof →
      HasDerivAt (fun s => R p (axpy X (s * a) W) t (axpy U s W) i) (rowTimes (unknowns axs dof) (k p a X t U) i W) 0) (shiftV shiftA t : ℝ) :
    ∃ (f : (List Int → Nat → ℝ) → (List Int → Nat → ℝ) → List Int → Nat → ℝ) (a : (List Int → Nat → ℝ) → (List Int → Nat → ℝ) → List Int → Nat → List Int → Nat → ℝ),
      ∀ {g2 : Guess2} {g3 : Guess3} {size : Int} {procs : List Int} {Ls : List (Layout K)},
        Setup g2 g3 false size procs axes axs Ls →
        (∀ debug hist pw w jA jV jU vecA vecV vecU x u, Represents axs Ls dof vecA x → Represents axs Ls dof vecU u →
          (∃ F, tsI2Function ⟨debug, Ls, hist, dof, ⟨elt, pw, w⟩, jA, jV, jU⟩ ops t vecU vecV vecA = .ok F ∧
            computeIFunction Ls hist dof ⟨elt, pw, w⟩ cbR 0 vecA t vecU jV jU = .ok F ∧ Represents axs Ls dof F (f x u)) ∧
          ∃ J, tsI2Jacobian ⟨debug, Ls, hist, dof, ⟨elt, pw, w⟩, jA, jV, jU⟩ ops t vecU vecV vecA shiftV shiftA = .ok J ∧ RepresentsMat axs Ls dof J (a x u)) ∧
        ∀ x0 u0 u w, IsDerivative axs dof (fun s => f (stage shiftA x0 u0 (along u s w)) (along u s w)) (a (stage shiftA x0 u0 u) u) w := by
  obtain ⟨f, a, h⟩ := C78_ifunction axes axs dof elt hE (fun p _ X t U => cbR p 0 X t U) cbK (fun p _ X t U => R p X t U) k
    (fun _ => hR) hK hD shiftA t
  refine ⟨f, a, fun S => ⟨fun debug hist pw w jA jV jU vecA vecV vecU x u hx hu => ?_, fun x0 u0 u w => ?_⟩⟩
  · unfold tsI2Function tsI2Jacobian
    rw [if_neg hie.isNone, if_neg hie.isNone, hr debug, hk debug]
    obtain ⟨⟨F, h1, h2⟩, h3⟩ := (h S).1 hist pw w vecA vecU jV jU x u hx hu
    exact ⟨⟨F, h1, h1, h2⟩, h3⟩
  · simp only [stage_along]
    exact (h S).2 (stage shiftA x0 u0 u) u w

/-- **C91.** A solver whose callbacks are missing reports it (builds with `PETSC_USE_DEBUG`). -/
theorem C91_missing [CommRing V] (R : Run K V P) (hd : R.debug = true) (ops : Ops C V P) :
    (Absent ops .function → ∀ U, snesFunction R ops U = .err .user) ∧
    (Absent ops .jacobian → ∀ U, snesJacobian R ops U = .err .user) ∧
    (Absent ops .iefunction → Absent ops .ifunction → ∀ t0 U0 t U W, tsIFunction R ops t0 U0 t U W = .err .user) ∧
    (Absent ops .iejacobian → Absent ops .ijacobian → ∀ t0 U0 t U W a, tsIJacobian R ops t0 U0 t U W a = .err .user) ∧
    (Absent ops .i2function → Absent ops .ifunction → ∀ t U W A, tsI2Function R ops t U W A = .err .user) ∧
    (Absent ops .i2jacobian → Absent ops .ijacobian → ∀ t U W A a b, tsI2Jacobian R ops t U W A a b = .err .user) ∧
    (Absent ops .system → Absent ops .vector → ∀ b, kspSetUp R ops b = .err .user) := by
  refine ⟨fun h U => ?_, fun h U => ?_, fun h h' t0 U0 t U W => ?_, fun h h' t0 U0 t U W a => ?_, fun h h' t U W A => ?_,
    fun h h' t U W A a b => ?_, fun h h' b => ?_⟩
  · unfold snesFunction; rw [hd, h.callback]; rfl
  · unfold snesJacobian; rw [hd, h.callback]; rfl
  · unfold tsIFunction; rw [if_neg h.isNone, hd, h'.callback]; rfl
  · unfold tsIJacobian; rw [hd, h.callback, h'.callback]; split_ifs <;> rfl
  · unfold tsI2Function; rw [if_neg h.isNone, hd, h'.callback]; rfl
  · unfold tsI2Jacobian; rw [hd, h.callback, h'.callback]; split_ifs <;> rfl
  · unfold kspSetUp kspRHS; rw [if_neg h.isNone, hd, h'.callback]; rfl

/-- **C91**, `KSPSetIGA` with a callback set with `IGASetFormSystem`: the matrix and right-hand side the solver is left with
are solved exactly by the fields that take the prescribed values and satisfy the equations at the other unknowns,
whatever the right-hand side contained before and whatever other callbacks there are. -/
theorem C91_ksp_system [Field V] [CharZero V] {g2 : Guess2} {g3 : Guess3} {size : Int} {procs : List Int} {axes axs : List (Axis K)}
    {Ls : List (Layout K)} {elt : List Int → Elt V P} {bc : List (Form.Op V)} {dof : Nat} {UG : Option (List Int → Int → V)}
    (S : Setup g2 g3 false size procs axes axs Ls) (hB : ∀ e, InBox (axs.map Axis.nel) e → Built axs bc dof UG e (elt e)) (ops : Ops C V P)
    (cb : Body V P .system) (hs : Given ops .system cb) (k r : P → Int → V)
    (hK : FillsSys (unknowns axs dof) (unknowns axs dof) cb k r) (debug) (hist) (pw) (w) (jA jV jU) (b0 : Int → V) :
    ∃ A b a f, kspSetUp ⟨debug, Ls, hist, dof, ⟨elt, pw, w⟩, jA, jV, jU⟩ ops b0 = .ok (A, b) ∧
      RepresentsMat axs Ls dof A a ∧ Represents axs Ls dof b f ∧
      ∀ u : List Int → Nat → V,
        ((∀ z (c : Nat), InBox (axs.map Axis.nnp) z → c < dof →
            ((indices (axs.map Axis.nnp)).map fun y => ((List.range dof).map fun d => a z c y d * u y d).sum).sum = f z c) ↔
          Satisfies axs bc dof UG u ∧ AtFree axs bc dof UG
            (fun z c => ((indices (axs.map Axis.nnp)).map fun y => ((List.range dof).map fun d =>
              sumMat axs dof (fun e i j => integral (elt e) fun p => k p (i * unknowns axs dof + j)) z c y d * u y d).sum).sum)
            (fun z c => weak axs dof elt (fun _ => r) z c + loads axs dof elt z c)) := by
  obtain ⟨A, b, a, f, h1, h⟩ := C80_system S hB cb k r hK hist pw w
  refine ⟨A, b, a, f, ?_, h⟩
  unfold kspSetUp kspRHS kspOperators
  rw [if_pos hs.isSome]
  show (if (ops.fn .system).isSome = true then _ else _) = _
  rw [if_pos hs.isSome, hs debug]
  exact h1

/-- **C91**, `KSPSetIGA` with callbacks set with `IGASetFormMatrix` and `IGASetFormVector` and none for a system: the solver gets the
assembled forms, in which no boundary condition is imposed. -/
theorem C91_ksp_forms [Field V] [CharZero V] {g2 : Guess2} {g3 : Guess3} {size : Int} {procs : List Int} {axes axs : List (Axis K)}
    {Ls : List (Layout K)} {elt : List Int → Elt V P} {bc : List (Form.Op V)} {dof : Nat} {UG : Option (List Int → Int → V)}
    (S : Setup g2 g3 false size procs axes axs Ls) (hB : ∀ e, InBox (axs.map Axis.nel) e → Built axs bc dof UG e (elt e)) (ops : Ops C V P)
    (hs : Absent ops .system) (cbA : Body V P .matrix) (cbB : Body V P .vector) (ha : Given ops .matrix cbA) (hb : Given ops .vector cbB)
    (k r : P → Int → V) (hK : Fills (unknowns axs dof * unknowns axs dof) cbA k) (hR : Fills (unknowns axs dof) cbB r)
    (debug) (hist) (pw) (w) (jA jV jU) (b0 : Int → V) :
    ∃ A b, kspSetUp ⟨debug, Ls, hist, dof, ⟨elt, pw, w⟩, jA, jV, jU⟩ ops b0 = .ok (A, b) ∧
      RepresentsMat axs Ls dof A (sumMat axs dof fun e i j => integral (elt e) fun p => k p (i * unknowns axs dof + j)) ∧
      Represents axs Ls dof b (weak axs dof elt fun _ => r) := by
  obtain ⟨A, a1, a2⟩ := C80_matrix S hB cbA k hK hist pw w
  obtain ⟨b, b1, b2⟩ := C80_vector S hB cbB r hR hist pw w
  refine ⟨A, b, ?_, a2, b2⟩
  unfold kspSetUp kspRHS kspOperators
  rw [if_neg hs.isNone, hb debug]
  show (computeVector Ls hist dof ⟨elt, pw, w⟩ cbB).bind _ = _
  rw [b1]
  show (if (ops.fn .system).isSome = true then _ else _) = _
  rw [if_neg hs.isNone, ha debug]
  show (computeMatrix Ls hist dof ⟨elt, pw, w⟩ cbA).bind _ = _
  rw [a1]
  rfl

end

/-! ### Non-vacuity -/

/-- A nonlinear problem with mass, `R = u² + v`, and its Jacobian, both registered with a context. -/
noncomputable def exHistory : List (Reg Nat ℝ Unit) :=
  [⟨.ifunction, some fun (_ : Nat) _ _ X _ U A => .ok fun i => A i + (U.getD i.toNat 0 * U.getD i.toNat 0 + X.getD i.toNat 0), 1⟩,
   ⟨.ijacobian, some fun (_ : Nat) _ a _ _ U A => .ok fun i => A i + diag (unknowns exAxs 1) (fun i => 2 * U.getD i 0 + a) i, 2⟩]

/-- The theorem applies to it, on 4 processes. -/
example (shift t : ℝ) : ∃ Ls : List (Layout Rat), Setup exactGuess2 exactGuess3 false 4 [2,2] [exAx0, exAx1] exAxs Ls ∧
    ∃ (f : (List Int → Nat → ℝ) → (List Int → Nat → ℝ) → List Int → Nat → ℝ) (a : (List Int → Nat → ℝ) → (List Int → Nat → ℝ) → List Int → Nat → List Int → Nat → ℝ),
      (∀ debug hist pw w jA jV jU t0 vecU0 vecV vecU v u, Represents exAxs Ls 1 vecV v → Represents exAxs Ls 1 vecU u →
        ∃ F, tsIFunction ⟨debug, Ls, hist, 1, ⟨exElts, pw, w⟩, jA, jV, jU⟩ (after 0 exHistory) t0 vecU0 t vecU vecV = .ok F ∧ Represents exAxs Ls 1 F (f v u)) ∧
      ∀ v0 u0 u w, IsDerivative exAxs 1 (fun s => f (stage shift v0 u0 (along u s w)) (along u s w)) (a (stage shift v0 u0 u) u) w := by
  obtain ⟨Ls, S⟩ := exSetup exactGuess2 exactGuess3
  obtain ⟨f, a, h⟩ := C91_ts [exAx0, exAx1] exAxs 1 exElts exElts_elements (after 0 exHistory) rfl _ _
    (fun d => C90_callback_partial 0 [] [_] .ifunction _ 1 (by simp) (by simp [sharing]) d)
    (fun d => C90_callback_partial 0 [_] [] .ijacobian _ 2 (by simp) (by simp) d)
    (fun _ X _ U i => U.getD i.toNat 0 * U.getD i.toNat 0 + X.getD i.toNat 0)
    (fun _ a _ _ U => diag (unknowns exAxs 1) fun i => 2 * U.getD i 0 + a)
    (fun X t U => fills_self _ _) (fun a X t U => fills_self _ _) (by
      intro p a X t U W hX hU hW i hi
      rw [rowTimes_diag _ _ i hi, add_mul]
      exact (square_deriv hU hW hi).fun_add (linear_deriv a hX hW hi)) shift t
  exact ⟨Ls, S, f, a, fun debug hist pw w jA jV jU t0 vecU0 vecV vecU v u hv hu =>
    ((h S).1 debug hist pw w jA jV jU t0 vecU0 vecV vecU v u hv hu).1, (h S).2⟩

/-- A linear system with boundary conditions, on 4 processes. -/
example : ∃ Ls : List (Layout Rat), Setup exactGuess2 exactGuess3 false 4 [2,2] [exAx0, exAx1] exAxs Ls ∧
    ∀ debug hist pw w jA jV jU b0, ∃ A b, kspSetUp ⟨debug, Ls, hist, 1, ⟨exBuiltElt, pw, w⟩, jA, jV, jU⟩
      (after (0:Nat) [⟨.system, some fun (_ : Nat) (_ : Unit) A B => .ok (fun i => A i + 1, fun i => B i + i), 7⟩]) b0 = .ok (A, b) := by
  obtain ⟨Ls, S⟩ := exSetup exactGuess2 exactGuess3
  refine ⟨Ls, S, fun debug hist pw w jA jV jU b0 => ?_⟩
  obtain ⟨A, b, -, -, h, -⟩ := C91_ksp_system (C := Nat) S (exBuilt (Prb.setup_wf S)) _ (fun _ A B => .ok (fun i => A i + 1, fun i => B i + i))
    (fun d => C90_callback (V := ℚ) 0 [] [] .system rfl (fun (_ : Nat) (_ : Unit) A B => .ok (fun i => A i + 1, fun i => B i + i)) 7 (by simp) d) (fun _ _ => 1) (fun _ i => i) (by
      intro p A B hA hB
      exact ⟨_, _, rfl, fun i h0 h1 => by rw [hA i h0 h1, zero_add], fun i h0 h1 => by rw [hB i h0 h1, zero_add]⟩)
    debug hist pw w jA jV jU b0
  exact ⟨A, b, h⟩

end PetIGA.Sol
