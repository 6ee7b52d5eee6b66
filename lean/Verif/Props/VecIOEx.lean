import Verif.Props.VecIO
import Verif.Props.IntegrateTables
/-
Non-vacuity of `C108_same_file_partial`: a 2D grid without periodic directions.
-/
namespace PetIGA.VIO
open PetIGA.Ax PetIGA.Lay PetIGA.Grid PetIGA.Prb PetIGA.Dmda PetIGA.IO PetIGA.Part PetIGA.Asm PetIGA.Itg

example (g2 : Guess2) (g3 : Guess3) (mem : Int → ℝ) (u : List Int → Nat → ℝ) : ∃ (Ls : List (Layout ℝ)) (gvec : Int → ℝ) (f : File ℝ),
    Represents [exRealAx, exRealAx] Ls 2 gvec u ∧ view (.binary true) Ls 2 gvec = .ok (.file f) ∧ saveVec true mem (appWorld Ls) 2 gvec = .ok f := by
  obtain ⟨Ls, S⟩ := exRealSetup g2 g3
  obtain ⟨gvec, hu⟩ := represents_exists S 2 u
  obtain ⟨f, h1, h2⟩ := C108_same_file_partial S (by simp) (by simp [exRealAx, knotAxis]) true mem 2 gvec u hu
  exact ⟨Ls, gvec, f, hu, h1, h2⟩

end PetIGA.VIO
