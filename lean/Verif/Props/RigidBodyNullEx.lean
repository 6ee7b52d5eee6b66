import Verif.Props.RigidBodyNull
import Verif.Props.RigidBodyPeriodicEx
/-
A case for `C89_null_space`.
-/
set_option linter.unusedSectionVars false
namespace PetIGA.Itg
open PetIGA.Quad PetIGA.Drv PetIGA.Spec PetIGA.Ax PetIGA.Lay PetIGA.Asm PetIGA.Rule PetIGA.Grid PetIGA.Part PetIGA.Ker PetIGA.PCA PetIGA.Crd

/-- `C89_null_space` applies: two processes, two directions of degree 2 with three elements each.  The null
space has three parameters. -/
example (g2 : Guess2) (g3 : Guess3) (J : Bsp.Junk ℝ) (hist : Nat → Hist) (pw : Nat → List Int → PWork ℝ) (w : Nat → List Int → Work ℝ) (huge : ℝ) :
    ∃ (Ls : List (Layout ℝ)) (elt : List Int → Elt ℝ (PtData (exLines J).length 2 (nenOf ((exLines J).map Direction.ax)))),
    ∃ m0 m1 m2 A, createRigidBody huge [.bspline, .bspline] 0 2 Ls (fun _ => none) = .ok [m0, m1, m2] ∧
      computeMatrix Ls hist 2 ⟨elt, pw, w⟩ (fun p A => .ok fun i => A i + elastic p i) = .ok A ∧
      ∀ v : Int → ℝ, (∀ i : Nat, i < total ((exLines J).map Direction.ax) 2 →
          ∑ j ∈ Finset.range (total ((exLines J).map Direction.ax) 2), A ((i:Int), (j:Int)) * v j = 0) ↔
        ∃ a b c : ℝ, ∀ i : Nat, i < total ((exLines J).map Direction.ax) 2 → v i = a * m0 i + b * m1 i + c * m2 i := by
  obtain ⟨Ls, S⟩ := exRealSetup g2 g3
  have S' : Setup g2 g3 false 2 [2,1] [exRealAx, exRealAx] ((exLines J).map Direction.ax) Ls := S
  have hok := exLines_ok J
  obtain ⟨c, elt, hc, hg, hI⟩ := interior_exists S' (fun δ h => (hok δ h).1) (fun δ h => (hok δ h).2.1) 2 2 (by omega)
  have hper : ∀ δ ∈ exLines J, δ.ax.periodic = false := by
    intro δ hδ
    simp only [exLines, exLine, List.mem_cons, List.not_mem_nil, or_false, or_self] at hδ
    subst hδ
    rfl
  refine ⟨Ls, elt, ?_⟩
  obtain ⟨ms, A, a1, a2, a3⟩ := C89_null_space S' (fun δ h => (hok δ h).1) (fun δ h => (hok δ h).2.1) (fun δ h => (hok δ h).2.2.1)
    hper (fun _ => hc) (fun _ => hg) hI (fun p A => .ok fun i => A i + elastic p i) (fills_self _ _) hist pw w huge (fun _ => none)
  obtain ⟨ms', A', b1, -, ⟨b2, -⟩, -⟩ := C89_rigid_body_partial S' (fun δ h => (hok δ h).1) (fun δ h => (hok δ h).2.1) hper (fun _ => hc) (fun _ => hg) hI
    (fun p A => .ok fun i => A i + elastic p i) elastic (fills_self _ _) elastic_strain hist pw w huge (fun _ => none)
  obtain rfl : ms' = ms := Res.ok.inj (b1.symm.trans a1)
  have h3 : ms'.length = 3 := by rw [b2]; simp [exLines]
  obtain _ | ⟨m0, _ | ⟨m1, _ | ⟨m2, _ | ⟨m3, l⟩⟩⟩⟩ := ms' <;> simp at h3
  refine ⟨m0, m1, m2, A, a1, a2, fun v => (a3 v).trans ⟨fun ⟨a, h⟩ => ⟨a 0, a 1, a 2, fun i hi => ?_⟩, fun ⟨a, b, c, h⟩ =>
    ⟨fun n => if n = 0 then a else if n = 1 then b else c, fun i hi => ?_⟩⟩⟩
  · rw [h i hi]; simp; ring
  · rw [h i hi]; simp; ring

end PetIGA.Itg
