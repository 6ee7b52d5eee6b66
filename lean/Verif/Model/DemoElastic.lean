import Verif.Model.DemoForms
/-
Model of demo/Elasticity3D.c: the callback of the system.

Simplifications: exact real arithmetic; the loops over the nodes and the nine assignments of their body run over the list of the index tuples in the
same order.  Not modelled: boundary values of `main`, the solver, output.
-/
namespace PetIGA.Demo
open PetIGA.Itg PetIGA.Ker PetIGA.Frm

variable {n : Nat}

/-- The nine assignments to `Kl[a][i][b][j]`, demo/Elasticity3D.c:34-42, with `x` for `Na_x, Na_y, Na_z` and `y` for `Nb_x, Nb_y, Nb_z`. -/
def elasticEntry (lambda mu : ℝ) (x y : Fin 3 → ℝ) : Fin 3 → Fin 3 → ℝ
  | 0, 0 => x 0 * y 0 * (lambda + 2 * mu) + mu * (x 1 * y 1 + x 2 * y 2)
  | 0, 1 => x 0 * y 1 * lambda + x 1 * y 0 * mu
  | 0, 2 => x 0 * y 2 * lambda + x 2 * y 0 * mu
  | 1, 0 => x 0 * y 1 * mu + x 1 * y 0 * lambda
  | 1, 1 => x 1 * y 1 * (lambda + 2 * mu) + mu * (x 2 * y 2 + x 0 * y 0 * mu)
  | 1, 2 => x 1 * y 2 * lambda + x 2 * y 1 * mu
  | 2, 0 => x 0 * y 2 * mu + x 2 * y 0 * lambda
  | 2, 1 => x 1 * y 2 * mu + x 2 * y 1 * lambda
  | 2, 2 => mu * (x 0 * y 0 + x 1 * y 1) + x 2 * y 2 * (lambda + 2 * mu)

/-- `System`, demo/Elasticity3D.c:13-47: it writes `F[a]` for the nodes only, not for their three components. -/
def elasticSystem (lambda mu : ℝ) (p : PtData 3 3 n) (K F : Int → ℝ) : Res ((Int → ℝ) × (Int → ℝ)) :=
  .ok (fillMat (dof := 3) (fun a i b j => elasticEntry lambda mu (fun l => p.shape.t1 l a) (fun l => p.shape.t1 l b) i j) K,
    (List.finRange n).foldl (fun F a => put F ((a : Nat) : Int) 0) F)

end PetIGA.Demo
