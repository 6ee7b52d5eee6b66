import Verif.Spec.Knots
import Verif.Spec.Part
/-
Independent specification of a 1-D decomposition of an index range, and of the axes that the axis interface
can produce.
-/
namespace PetIGA.Spec

/-- The ranges `[start r, start r + len r)`, `r = 0,…,P-1`, are consecutive, non-empty and cover
`0,…,N-1`. -/
structure Tiles (P N : Int) (start len : Int → Int) : Prop where
  first : start 0 = 0
  next : ∀ r, 0 ≤ r → r + 1 < P → start (r+1) = start r + len r
  last : start (P-1) + len (P-1) = N
  pos : ∀ r, 0 ≤ r → r < P → 1 ≤ len r

/-- Index `i` lies in the range of process `r`. -/
def Owner (P : Int) (start len : Int → Int) (i r : Int) : Prop :=
  0 ≤ r ∧ r < P ∧ start r ≤ i ∧ i < start r + len r

/-- The multi-index `x` lies in the block `∏ [start_d, start_d + len_d)`. -/
inductive InBlock : List Int → List Int → List Int → Prop
  | nil : InBlock [] [] []
  | cons {s l i : Int} {ss ls is : List Int} : s ≤ i ∧ i < s + l → InBlock ss ls is →
      InBlock (s :: ss) (l :: ls) (i :: is)

/-- In every direction the block is non-empty and inside `[0, N_d)`. -/
inductive Blocks : List Int → List Int → List Int → Prop
  | nil : Blocks [] [] []
  | cons {N s l : Int} {Ns ss ls : List Int} : 0 ≤ s ∧ 1 ≤ l ∧ s + l ≤ N → Blocks Ns ss ls →
      Blocks (N :: Ns) (s :: ss) (l :: ls)

/-- Lexicographic number of the multi-index `x` in a box with `n₀ × n₁ × …` entries, first index fastest. -/
def flat : List Int → List Int → Int
  | n :: ns, i :: is => i + n * flat ns is
  | _, _ => 0

/-- Multi-index relative to the first corner of a block. -/
def rel (start x : List Int) : List Int := List.zipWith (fun i s => i - s) x start

/-- Multi-index displaced by `h`. -/
def shiftBy (h x : List Int) : List Int := List.zipWith (fun i s => i + s) x h

/-- The blocks of ranks `0,…,P-1` are non-empty, inside the grid `∏[0,N_d)`, and every grid point lies in exactly
one of them. -/
structure Partitions (Ns : List Int) (P : Nat) (start len : Nat → List Int) : Prop where
  inside : ∀ r, r < P → Blocks Ns (start r) (len r)
  owner : ∀ x, InBox Ns x → ∃ r, (r < P ∧ InBlock (start r) (len r) x) ∧
    ∀ r', r' < P → InBlock (start r') (len r') x → r' = r

end PetIGA.Spec
