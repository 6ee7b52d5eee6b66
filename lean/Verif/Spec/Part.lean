import Mathlib.Data.List.Forall2
/-
Independent specification of a processor grid and of a balanced block distribution.
Nothing here refers to the model.
-/
namespace PetIGA.Spec

/-- `c` is a coordinate tuple of the box `[0,n₀)×[0,n₁)×…`. -/
def InBox (n c : List Int) : Prop := List.Forall₂ (fun a b => 0 ≤ b ∧ b < a) n c

/-- Product of the entries. -/
def prod : List Int → Int
  | [] => 1
  | a :: as => a * prod as

/-- `n'` keeps every entry of the request `n` that the user fixed (entries `≥ 1`). -/
def Honours (n n' : List Int) : Prop := List.Forall₂ (fun a b => 1 ≤ a → b = a) n n'

/-- Every direction gets between one process and one process per grid entity. -/
def Fits (N n' : List Int) : Prop := List.Forall₂ (fun a b => 1 ≤ b ∧ b ≤ a) N n'

/-- `g` is `⌊1/2 + √(M·size/N)⌋` in exact arithmetic. -/
def RoundSqrt (size M N g : Nat) : Prop :=
  (g ≠ 0 → (2*g-1)^2 * N ≤ 4*M*size) ∧ 4*M*size < (2*g+1)^2 * N

/-- `g` is `⌊1/2 + ∛(M²·size/(N·P))⌋` in exact arithmetic. -/
def RoundCbrt (size M N P g : Nat) : Prop :=
  (g ≠ 0 → (2*g-1)^3 * (N*P) ≤ 8*(M*M)*size) ∧ 8*(M*M)*size < (2*g+1)^3 * (N*P)

/-- `(len r, start r)`, `r = 0,…,size-1`, is a balanced contiguous distribution of `0,…,N-1`. -/
structure Balanced (size N : Int) (len start : Int → Int) : Prop where
  /-- block 0 starts at 0 -/
  first : start 0 = 0
  /-- consecutive blocks are adjacent -/
  next : ∀ r, 0 ≤ r → r + 1 < size → start (r+1) = start r + len r
  /-- the last block ends at `N` -/
  last : start (size-1) + len (size-1) = N
  /-- no block is negative -/
  nonneg : ∀ r, 0 ≤ r → r < size → 0 ≤ len r
  /-- sizes differ by at most one, larger blocks first -/
  even : ∀ r r', 0 ≤ r → r ≤ r' → r' < size → len r' ≤ len r ∧ len r ≤ len r' + 1
  /-- with at least one entity per process no block is empty -/
  full : size ≤ N → ∀ r, 0 ≤ r → r < size → 1 ≤ len r
  /-- every entity belongs to exactly one block -/
  owner : ∀ e, 0 ≤ e → e < N → ∃ r, (0 ≤ r ∧ r < size ∧ start r ≤ e ∧ e < start r + len r) ∧
            ∀ r', (0 ≤ r' ∧ r' < size ∧ start r' ≤ e ∧ e < start r' + len r') → r' = r

end PetIGA.Spec
