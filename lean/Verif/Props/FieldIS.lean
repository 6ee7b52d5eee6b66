import Verif.Model.FieldIS
import Verif.Lemmas.Assemble
import Verif.Props.Assemble
import Mathlib.Data.List.Nodup
import Mathlib.Tactic.Ring
import Mathlib.Tactic.Linarith
/-! Property theorems about the index sets of the fields of a vector (C56).

A process owns the unknowns `bs*s, …, bs*(s+n)-1`: `n` nodes from global node `s`, `bs` unknowns each. -/
set_option linter.unusedSectionVars false
namespace PetIGA.DMF

/-- Unknown `i` is owned by the process that owns the global nodes `s, …, s+n-1`. -/
def OwnedUnknown (bs s n i : Int) : Prop := bs * s ≤ i ∧ i < bs * (s + n)

theorem tdiv_block {bs s : Int} (hb : 1 ≤ bs) : Int.tdiv (bs * s) bs = s := Int.mul_tdiv_cancel_left s (by omega)

/-- An owned unknown is field `i % bs` of node `i / bs`. -/
theorem split {bs s n i : Int} (hb : 1 ≤ bs) (h : OwnedUnknown bs s n i) :
    s ≤ i / bs ∧ i / bs < s + n ∧ i = (i / bs) * bs + i % bs ∧ 0 ≤ i % bs ∧ i % bs < bs := by
  obtain ⟨h0, h1⟩ := h
  refine ⟨?_, ?_, ?_, Int.emod_nonneg i (by omega), Int.emod_lt_of_pos i (by omega)⟩
  · rw [Int.le_ediv_iff_mul_le (by omega)]; linarith
  · rw [Int.ediv_lt_iff_lt_mul (by omega)]; linarith
  · have := Int.mul_ediv_add_emod i bs; linarith

theorem mod_block {bs j f : Int} (h0 : 0 ≤ f) (h1 : f < bs) : (j * bs + f) % bs = f ∧ (j * bs + f) / bs = j := by
  constructor
  · rw [Int.add_comm, Int.add_mul_emod_self_right, Int.emod_eq_of_lt h0 h1]
  · rw [Int.add_comm, Int.add_mul_ediv_right _ _ (by omega), Int.ediv_eq_zero_of_lt h0 h1, Int.zero_add]

/-- **C56**, sub-DM.  For distinct fields in range the index set has no repetition, contains exactly the owned
unknowns of these fields, and its entry number `j*numFields + q` is unknown `fields[q]` of the `j`-th owned node –
the position of that unknown in a vector of the sub-DM. -/
theorem C56_sub_dm (bs s n : Int) (fields : List Int) (hb : 1 ≤ bs) (hn : 0 ≤ n)
    (hf : ∀ f ∈ fields, 0 ≤ f ∧ f < bs) (hd : fields.Nodup) :
    ∃ L : List Int, subIS bs bs (bs*s) (bs*(s+n)) fields = .ok L ∧ L.Nodup ∧
      (∀ i : Int, i ∈ L ↔ OwnedUnknown bs s n i ∧ i % bs ∈ fields) ∧
      (L.length : Int) = n * fields.length ∧
      ∀ (j q : Nat) (f : Int), (j:Int) < n → fields[q]? = some f →
        L[j * fields.length + q]? = some (bs * (s + j) + f) := by
  have hall : fields.all (fun f => decide (0 ≤ f ∧ f < bs)) = true := by
    rw [List.all_eq_true]; intro f h; simp [hf f h]
  unfold subIS
  rw [if_pos hall]
  dsimp only
  rw [tdiv_block hb, tdiv_block hb, show s + n - s = n by ring]
  refine ⟨_, rfl, ?_, ?_, ?_, ?_⟩
  · rw [List.nodup_flatMap]
    constructor
    · intro j _
      rw [List.nodup_map_iff_inj_on hd]
      intro a _ b _ h; omega
    · rw [List.pairwise_iff_getElem]
      intro a b ha hb' hab
      simp only [Function.onFun, List.disjoint_left, List.mem_map, List.getElem_range]
      rintro x ⟨f, h1, rfl⟩ ⟨g, h2, h3⟩
      have e1 := (mod_block (j := s + (a:Int)) (hf f h1).1 (hf f h1).2).2
      have e2 := (mod_block (j := s + (b:Int)) (hf g h2).1 (hf g h2).2).2
      rw [h3] at e2
      omega
  · intro i
    simp only [List.mem_flatMap, List.mem_range, List.mem_map]
    constructor
    · rintro ⟨j, hj, f, h1, rfl⟩
      obtain ⟨f0, f1⟩ := hf f h1
      refine ⟨⟨?_, ?_⟩, by rw [(mod_block f0 f1).1]; exact h1⟩
      · nlinarith [mul_nonneg (show (0:Int) ≤ j by omega) (show 0 ≤ bs by omega)]
      · have : bs * ((j:Int) + 1) ≤ bs * n := mul_le_mul_of_nonneg_left (by omega) (by omega)
        nlinarith
    · rintro ⟨ho, hm⟩
      obtain ⟨a1, a2, a3, a4, a5⟩ := split hb ho
      refine ⟨(i / bs - s).toNat, by omega, i % bs, hm, ?_⟩
      rw [show ((i / bs - s).toNat : Int) = i / bs - s by omega]
      rw [show s + (i / bs - s) = i / bs by ring]
      exact a3.symm
  · rw [List.length_flatMap]
    simp only [List.length_map, List.map_const', List.sum_replicate, List.length_range]
    rw [smul_eq_mul]
    push_cast
    rw [show ((n.toNat:Int)) = n by omega]
  · intro j q f hj hq
    have hq' := (List.getElem?_eq_some_iff.1 hq).1
    have h := Grid.flatMap_block fields.length (fun (j : Nat) (q : Nat) => (s + (j:Int)) * bs + fields.getD q 0)
      (List.range n.toNat) q j hq'
    have e : (List.range n.toNat).flatMap (fun (j : Nat) => fields.map fun f => (s + (j:Int)) * bs + f) =
        (List.range n.toNat).flatMap (fun (j : Nat) => (List.range fields.length).map fun (q : Nat) =>
          (s + (j:Int)) * bs + fields.getD q 0) := by
      congr 1
      funext j
      apply List.ext_getElem
      · simp
      · intro k h1 h2
        simp only [List.getElem_map, List.getElem_range]
        rw [List.getD_eq_getElem?_getD, List.getElem?_eq_getElem (by simpa using h1)]
        rfl
    rw [e]
    rw [show j * fields.length + q = q + fields.length * j by rw [Nat.mul_comm, Nat.add_comm], h,
      List.getElem?_range (by omega)]
    have : fields.getD q 0 = f := by rw [List.getD_eq_getElem?_getD, hq]; rfl
    simp only [Option.map_some, this, Option.some.injEq]
    ring

/-- **C56**, a field out of range is rejected. -/
theorem C56_sub_dm_range (dof bs start stop : Int) (fields : List Int) (f : Int) (hf : f ∈ fields)
    (h : f < 0 ∨ dof ≤ f) : subIS dof bs start stop fields = .err .outOfRange := by
  unfold subIS
  rw [if_neg]
  rw [List.all_eq_true]
  intro hall
  have := hall f hf
  simp at this
  omega

/-- **C56** for the field index sets, in full: every field has one index set and the sets split the owned
unknowns by field. -/
def FieldsSplit (bs s n : Int) (F : List (List Int)) : Prop :=
  (F.length : Int) = bs ∧
  ∀ (q : Nat) (L : List Int), F[q]? = some L →
    L.Nodup ∧ ∀ i : Int, i ∈ L ↔ OwnedUnknown bs s n i ∧ i % bs = q

/-- The full property follows from `FieldsSplit`: the sets are disjoint and every owned unknown is in one. -/
theorem fieldsSplit_cover {bs s n : Int} {F : List (List Int)} (hb : 1 ≤ bs) (h : FieldsSplit bs s n F) :
    (∀ i : Int, OwnedUnknown bs s n i → ∃ (q : Nat) (L : List Int), F[q]? = some L ∧ i ∈ L) ∧
    ∀ (q q' : Nat) (L L' : List Int) (i : Int), F[q]? = some L → F[q']? = some L' → i ∈ L → i ∈ L' → q = q' := by
  constructor
  · intro i hi
    obtain ⟨-, -, -, a4, a5⟩ := split hb hi
    have hlt : (i % bs).toNat < F.length := by have := h.1; omega
    have hg : F[(i % bs).toNat]? = some F[(i % bs).toNat] := by simp [hlt]
    exact ⟨_, _, hg, ((h.2 _ _ hg).2 i).2 ⟨hi, by omega⟩⟩
  · intro q q' L L' i h1 h2 h3 h4
    have a := (((h.2 _ _ h1).2 i).1 h3).2
    have b := (((h.2 _ _ h2).2 i).1 h4).2
    omega

/-- **C56**, proved part: the field index sets split the owned unknowns by field on the process that owns the first
global node, and on every process when there is one unknown per node. -/
theorem C56_fields_partial (bs s n : Int) (hb : 1 ≤ bs) (hn : 0 ≤ n) (h : s = 0 ∨ bs = 1) :
    FieldsSplit bs s n (fieldIS bs (bs*s) (bs*(s+n))) := by
  unfold fieldIS FieldsSplit
  dsimp only
  rw [tdiv_block hb, tdiv_block hb, show s + n - s = n by ring]
  refine ⟨by rw [List.length_map, List.length_range]; omega, ?_⟩
  intro q L hq
  rw [List.getElem?_map, Option.map_eq_some_iff] at hq
  obtain ⟨q', hq', rfl⟩ := hq
  rw [List.getElem?_eq_some_iff] at hq'
  obtain ⟨hlt, he⟩ := hq'
  rw [List.getElem_range] at he
  subst he
  rw [List.length_range] at hlt
  unfold stride
  constructor
  · rw [List.nodup_map_iff_inj_on List.nodup_range]
    intro a _ b _ hab
    have : (a:Int) * bs = b * bs := by omega
    have := Int.eq_of_mul_eq_mul_right (by omega) this
    omega
  · intro i
    simp only [List.mem_map, List.mem_range]
    have hs : s + (q:Int) = bs * s + q := by rcases h with rfl | rfl <;> simp
    rw [hs]
    constructor
    · rintro ⟨k, hk, rfl⟩
      have e : bs * s + (q:Int) + k * bs = (s + k) * bs + q := by ring
      rw [e]
      refine ⟨⟨?_, ?_⟩, (mod_block (by omega) (by omega)).1⟩
      · nlinarith [mul_nonneg (show (0:Int) ≤ k by omega) (show 0 ≤ bs by omega)]
      · have : bs * ((k:Int) + 1) ≤ bs * n := mul_le_mul_of_nonneg_left (by omega) (by omega)
        nlinarith [show (q:Int) < bs by omega]
    · rintro ⟨ho, hm⟩
      obtain ⟨a1, a2, a3, a4, a5⟩ := split hb ho
      refine ⟨(i / bs - s).toNat, by omega, ?_⟩
      rw [show ((i / bs - s).toNat : Int) = i / bs - s by omega, ← hm]
      have : bs * s + i % bs + (i / bs - s) * bs = i / bs * bs + i % bs := by ring
      rw [this]; exact a3.symm

/-- **C56**, refuted on every other process: with several unknowns per node, a process that owns at least one node
but not the first one gets for field 0 an index set whose first entry is not one of its unknowns (it is
`start/bs`, the number of the node, not of the unknown). -/
theorem C56_fields_refuted (bs s n : Int) (hb : 2 ≤ bs) (hs : 1 ≤ s) (hn : 1 ≤ n) :
    (∃ L : List Int, (fieldIS bs (bs*s) (bs*(s+n)))[0]? = some L ∧ s ∈ L ∧ ¬ OwnedUnknown bs s n s) ∧
    ¬ FieldsSplit bs s n (fieldIS bs (bs*s) (bs*(s+n))) := by
  have key : ∃ L : List Int, (fieldIS bs (bs*s) (bs*(s+n)))[0]? = some L ∧ s ∈ L ∧ ¬ OwnedUnknown bs s n s := by
    refine ⟨stride n.toNat s bs, ?_, ?_, ?_⟩
    · unfold fieldIS
      dsimp only
      rw [tdiv_block (by omega), tdiv_block (by omega), show s + n - s = n by ring, List.getElem?_map,
        List.getElem?_range (by omega)]
      simp
    · unfold stride
      rw [List.mem_map]
      exact ⟨0, by rw [List.mem_range]; omega, by simp⟩
    · intro h
      have := h.1
      nlinarith
  refine ⟨key, fun h => ?_⟩
  obtain ⟨L, h1, h2, h3⟩ := key
  exact h3 (((h.2 0 L h1).2 s).1 h2).1

section
open PetIGA.Spec PetIGA.Part PetIGA.Lay PetIGA.Ax PetIGA.Grid PetIGA.Asm
variable {K : Type} [Field K] [LinearOrder K] [IsStrictOrderedRing K]
variable {g2 : Guess2} {g3 : Guess3} {colloc : Bool} {size : Int} {procs : List Int} {axes axs : List (Axis K)}
  {Ls : List (Layout K)}

/-- **C56**, sub-DM, end to end.  After a successful setup on any number of processes, the index set of process `r`
(whose layout range is `[bs*offset r, bs*offset (r+1))`) contains exactly the unknowns `bs*g(x) + f` of the nodes
`x` this process owns, `g(x)` being the global number of the node, and `f` one of the requested fields. -/
theorem C56_sub_dm_after_setup (S : Setup g2 g3 colloc size procs axes axs Ls) (bs : Int) (hb : 1 ≤ bs) (r : Nat)
    (hr : r < Ls.length) (fields : List Int) (hf : ∀ f ∈ fields, 0 ≤ f ∧ f < bs) (hd : fields.Nodup) :
    ∃ L : List Int, subIS bs bs (bs * offset (world (appWorld Ls)) r) (bs * offset (world (appWorld Ls)) (r+1)) fields
        = .ok L ∧ L.Nodup ∧
      ∀ i : Int, i ∈ L ↔ ∃ (x : List Int) (f : Int), InBlock (ownStart (world (appWorld Ls)) r) (ownWidth (world (appWorld Ls)) r) x ∧
        f ∈ fields ∧ i = bs * appToPetsc (world (appWorld Ls)) (flat (axs.map Axis.nnp) x) + f := by
  obtain ⟨D, hNs⟩ := S.grid
  obtain ⟨-, -, surj, own, -, o0, oN⟩ := C26_global_numbering _ _ D hNs
  have hlen : (world (appWorld Ls)).length = Ls.length := by simp [world, appWorld]
  generalize world (appWorld Ls) = W at *
  generalize axs.map Axis.nnp = Ns at *
  have hm := offset_mono D (r := r) (r' := r+1) (by omega)
  obtain ⟨L, h1, h2, h3, -, -⟩ := C56_sub_dm bs (offset W r) (offset W (r+1) - offset W r) fields hb (by omega) hf hd
  rw [show offset W r + (offset W (r+1) - offset W r) = offset W (r+1) by ring] at h1
  refine ⟨L, h1, h2, fun i => ?_⟩
  rw [h3]
  have m0 := offset_mono D (r := 0) (r' := r) (by omega)
  have m1 := offset_mono D (r := r+1) (r' := W.length) (by omega)
  constructor
  · rintro ⟨ho, hi⟩
    obtain ⟨a1, a2, a3, a4, a5⟩ := split hb ho
    obtain ⟨x, hx, he⟩ := surj (i / bs) (by omega) (by omega)
    refine ⟨x, i % bs, (own r x (by omega) hx).2 (by omega), hi, ?_⟩
    rw [he]; rw [Int.mul_comm]; exact a3
  · rintro ⟨x, f, hx, hfm, rfl⟩
    obtain ⟨g, hg⟩ := get_of_lt (show r < W.length by omega)
    have hin : InBox Ns x := by
      have hx' := hx
      rw [(own_get hg).1, (own_get hg).2.1] at hx'
      exact inBlock_inBox (own_blocks D hg) hx'
    obtain ⟨b1, b2⟩ := (own r x (by omega) hin).1 hx
    obtain ⟨f0, f1⟩ := hf f hfm
    generalize appToPetsc W (flat Ns x) = G at *
    rw [Int.mul_comm bs G, (mod_block f0 f1).1]
    refine ⟨⟨?_, ?_⟩, hfm⟩
    · nlinarith [mul_le_mul_of_nonneg_left b1 (show 0 ≤ bs by omega)]
    · have : bs * (G + 1) ≤ bs * offset W (r+1) := mul_le_mul_of_nonneg_left (by omega) (by omega)
      rw [show offset W r + (offset W (r+1) - offset W r) = offset W (r+1) by ring]
      nlinarith

/-- **C56**, refuted for the field index sets: after any successful setup on several processes with several unknowns
per node, on no process but the first do the field index sets split the owned unknowns. -/
theorem C56_fields_after_setup_refuted (S : Setup g2 g3 colloc size procs axes axs Ls) (bs : Int) (hb : 2 ≤ bs)
    (r : Nat) (hr : r < Ls.length) (h1 : 1 ≤ r) :
    1 ≤ offset (world (appWorld Ls)) (r+1) - offset (world (appWorld Ls)) r ∧
    ¬ FieldsSplit bs (offset (world (appWorld Ls)) r) (offset (world (appWorld Ls)) (r+1) - offset (world (appWorld Ls)) r)
      (fieldIS bs (bs * offset (world (appWorld Ls)) r) (bs * offset (world (appWorld Ls)) (r+1))) := by
  obtain ⟨D, hNs⟩ := S.grid
  have hlen : (world (appWorld Ls)).length = Ls.length := by simp [world, appWorld]
  generalize world (appWorld Ls) = W at *
  have pos : ∀ q : Nat, q < W.length → 1 ≤ offset W (q+1) - offset W q := by
    intro q hq
    obtain ⟨g, hg⟩ := get_of_lt hq
    rw [offset_succ hg, nlocal_eq]
    have := prod_pos (blocks_pos (own_blocks D hg)).1
    omega
  have p0 := pos 0 (by omega)
  have p1 := pos r (by omega)
  have := offset_mono D (r := 0+1) (r' := r) h1
  have e : offset W 0 = 0 := by simp [offset]
  refine ⟨p1, ?_⟩
  have := (C56_fields_refuted bs (offset W r) (offset W (r+1) - offset W r) hb (by omega) p1).2
  rwa [show offset W r + (offset W (r+1) - offset W r) = offset W (r+1) by ring] at this

/-- Non-vacuity: a 2-D setup on four processes. -/
example : ∃ Ls, Setup exactGuess2 exactGuess3 false 4 [2,2] [exAx0, exAx1] exAxs Ls := exSetup _ _
end

/-- Non-vacuity: process 1 of two, three unknowns per node, nodes 4–6: the sub-DM of fields 2 and 0. -/
example : subIS 3 3 12 21 [2, 0] = .ok [14, 12, 17, 15, 20, 18] := by decide +kernel
example : fieldIS 3 0 12 = [[0, 3, 6, 9], [1, 4, 7, 10], [2, 5, 8, 11]] := by decide +kernel
/-- The same process's field index sets: 4, 7, 10 are not among the unknowns 12–20 of field 0. -/
example : fieldIS 3 12 21 = [[4, 7, 10], [5, 8, 11], [6, 9, 12]] := by decide +kernel

end PetIGA.DMF
