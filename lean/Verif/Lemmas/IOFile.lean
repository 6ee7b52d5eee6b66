import Verif.Lemmas.IO
import Verif.Spec.Net
/-! Lemmas on the files: what is written through the grid of control points is read back, on any number of processes. -/
set_option linter.unusedSectionVars false
namespace PetIGA.IO
open PetIGA.Ax PetIGA.Lay PetIGA.Grid PetIGA.Spec PetIGA.Part

variable {K V : Type} [Field K] [LinearOrder K] [IsStrictOrderedRing K]
variable {Gs : List Int} {W : Grid.World}

theorem mapRes_ok {α β : Type} {f : α → Res β} {P : α → β → Prop} : ∀ {l : List α}, (∀ a ∈ l, ∃ b, f a = .ok b ∧ P a b) →
    ∃ l', mapRes f l = .ok l' ∧ List.Forall₂ P l l'
  | [], _ => ⟨[], rfl, .nil⟩
  | a :: l, h => by
    obtain ⟨b, h1, h2⟩ := h a (by simp)
    obtain ⟨l', h3, h4⟩ := mapRes_ok (l := l) fun a ha => h a (by simp [ha])
    refine ⟨b :: l', ?_, .cons h2 h4⟩
    unfold mapRes
    rw [h1, h3]; rfl

theorem readNums_ok (rest : File K) : ∀ l : List K, readNums l.length (l.map .num ++ rest) = .ok (l, rest)
  | [] => rfl
  | x :: l => by
    show (readNums l.length (l.map .num ++ rest)).bind _ = _
    rw [readNums_ok rest l]; rfl

theorem vecLoad_ok (skip : Bool) (n : Nat) (v : Int → K) (rest : File K) :
    vecLoad skip n (vecView skip n v ++ rest) = .ok ((List.range n).map fun (k : Nat) => v k, rest) := by
  have h := readNums_ok rest ((List.range n).map fun (k : Nat) => v k)
  rw [List.length_map, List.length_range, List.map_map] at h
  unfold vecLoad vecView
  cases skip
  · simp only [Bool.false_eq_true, if_false, List.cons_append, List.nil_append, readInt, Res.bind]
    rw [show check True Err.wrong = .ok () from rfl, show check True Err.fileUnexpected = .ok () from rfl]
    exact h
  · simp only [if_true, List.nil_append]
    exact h

theorem g2n_eq (H : IOGrid Gs W) (bs : Nat) : g2n W bs = W.zipIdx.flatMap fun gr =>
    (box (lbox gr.1)).flatMap fun x => (List.range bs).map fun (c : Nat) =>
      ((bs:Int) * appToPetsc W (flat Gs x) + c, (bs:Int) * flat Gs x + c) := by
  unfold g2n
  rw [List.flatMap_def, List.flatMap_def]
  congr 1
  apply List.map_congr_left
  rintro ⟨g, r⟩ hgr
  rw [List.mem_zipIdx_iff_getElem?] at hgr
  dsimp only at hgr ⊢
  have hl := length_local H.D hgr
  rw [show (localIndices 1 g).length = (nlocal g).toNat by omega, strideIS_eq, glob_lbox H.D hgr, localIndices_one,
    H.D.sizes g (List.mem_of_getElem? hgr), blockIS_zip]

theorem mem_g2n (H : IOGrid Gs W) (bs : Nat) (i j : Int) :
    (i, j) ∈ g2n W bs ↔ ∃ x, ∃ c : Nat, InBox Gs x ∧ c < bs ∧ i = (bs:Int) * appToPetsc W (flat Gs x) + c ∧ j = (bs:Int) * flat Gs x + c := by
  rw [g2n_eq H]
  simp only [List.mem_flatMap, List.mem_map, List.mem_range, Prod.mk.injEq, Prod.exists, List.mem_zipIdx_iff_getElem?]
  constructor
  · rintro ⟨g, r, hg, x, hx, c, hc, rfl, rfl⟩
    rw [mem_lbox hg] at hx
    exact ⟨x, c, inBlock_inBox (H.D.part.inside r (rank_lt hg)) hx, hc, rfl, rfl⟩
  · rintro ⟨x, c, hx, hc, rfl, rfl⟩
    obtain ⟨r, ⟨hr, hb⟩, -⟩ := H.D.part.owner x hx
    obtain ⟨g, hg⟩ := get_of_lt hr
    rw [← mem_lbox hg] at hb
    exact ⟨g, r, hg, x, hb, c, hc, rfl, rfl⟩

theorem vecSize_eq (H : IOGrid Gs W) (bs : Nat) : vecSize W bs = (bs * prod Gs).toNat := by
  obtain ⟨g, hg⟩ := get_of_lt (show 0 < W.length from H.ne)
  have : W.headD [] = g := by
    cases hW : W with
    | nil => rw [hW] at hg; simp at hg
    | cons a l => rw [hW] at hg; simpa using hg
  unfold vecSize
  rw [this, H.D.sizes g (List.mem_of_getElem? hg), foldl_mul, one_mul]

theorem prod_nonneg (H : IOGrid Gs W) : 1 ≤ prod Gs := prod_pos H.pos

/-- Writing: the entries of the file are the values the owners have. -/
theorem put_ok (H : IOGrid Gs W) (skip : Bool) (mem : Int → K) (bs : Nat) (lvec : Nat × Int → K) (f : List Int → Nat → K)
    (hl : ∀ r x c, r < W.length → InBlock (ghoStart W r) (ghoWidth W r) x → c < bs →
      lvec (r, (bs:Int) * flat (ghoWidth W r) (rel (ghoStart W r) x) + (c:Nat)) = f x c) :
    ∃ v, put skip mem W bs lvec = .ok (vecView skip (vecSize W bs) v) ∧
      ∀ x c, InBox Gs x → c < bs → v ((bs:Int) * flat Gs x + (c:Nat)) = f x c := by
  obtain ⟨g', e, hg, -⟩ := C27_local_to_global_insert Gs W H.D H.pos H.owned bs lvec mem
  refine ⟨insertAll (g2n W bs) g' mem, ?_, ?_⟩
  · unfold put; rw [e]; rfl
  · intro x c hx hc
    have val : ∀ x c, InBox Gs x → c < bs → g' ((bs:Int) * appToPetsc W (flat Gs x) + (c:Nat)) = f x c := by
      intro x c hx hc
      obtain ⟨r, ⟨hr, hb⟩, -⟩ := H.D.part.owner x hx
      rw [hg r x c hr hb hc]
      apply hl r x c hr _ hc
      obtain ⟨g, hgr⟩ := get_of_lt hr
      rw [← mem_gbox hgr]
      rw [← mem_lbox hgr] at hb
      exact sub_mem (H.owned g (List.mem_of_getElem? hgr)) hb
    apply insertAll_agree
    · rintro ⟨i, j⟩ hp he
      obtain ⟨x', c', hx', hc', rfl, rfl⟩ := (mem_g2n H bs i j).1 hp
      dsimp only at he ⊢
      obtain ⟨e1, rfl⟩ := block_inj hc' hc he
      rw [flat_inj hx' hx e1]
      exact val x c' hx hc
    · exact ⟨_, (mem_g2n H bs _ _).2 ⟨x, c, hx, hc, rfl, rfl⟩, rfl⟩

/-- Reading: every process gets the entries of the file for its control points. -/
theorem get_ok (H : IOGrid Gs W) (skip : Bool) (mem : Int → K) (bs : Nat) (v : Int → K) (rest : File K) :
    ∃ gvec lvec, get skip mem W bs (vecView skip (vecSize W bs) v ++ rest) = .ok ((gvec, lvec), rest) ∧
      (∀ x c, InBox Gs x → c < bs → gvec ((bs:Int) * appToPetsc W (flat Gs x) + (c:Nat)) = v ((bs:Int) * flat Gs x + c)) ∧
      (∀ r x c, r < W.length → InBlock (ghoStart W r) (ghoWidth W r) x → c < bs →
        lvec (r, (bs:Int) * flat (ghoWidth W r) (rel (ghoStart W r) x) + (c:Nat)) = v ((bs:Int) * flat Gs x + c)) := by
  unfold get
  rw [vecLoad_ok]
  refine ⟨_, _, rfl, ?_, ?_⟩
  swap
  · intro r x c hr hx hc
    rw [(C27_global_to_local Gs W H.D bs _ _).1 r x c hr hx hc, wrapAll_self (H.inside r x hr hx)]
    exact key x c (H.inside r x hr hx) hc
  · exact key
where
  key : ∀ x c, InBox Gs x → c < bs → insertAll (Grid.reverse (g2n W bs))
      (fun i : Int => ((List.range (vecSize W bs)).map fun (k : Nat) => v k).getD i.toNat 0) mem
      ((bs:Int) * appToPetsc W (flat Gs x) + (c:Nat)) = v ((bs:Int) * flat Gs x + c) := by
    intro x c hx hc
    have hv : ∀ i : Int, 0 ≤ i → i < bs * prod Gs →
        ((List.range (vecSize W bs)).map fun (k : Nat) => v k).getD i.toNat 0 = v i := by
      intro i h0 h1
      rw [vecSize_eq H, List.getD_eq_getElem?_getD, List.getElem?_map, List.getElem?_range (by omega)]
      simp [h0]
    have hr := flat_range hx
    apply insertAll_agree
    · rintro ⟨j, i⟩ hp he
      unfold Grid.reverse at hp
      rw [List.mem_map] at hp
      obtain ⟨⟨i', j'⟩, hp, he'⟩ := hp
      simp only [Prod.swap_prod_mk, Prod.mk.injEq] at he'
      obtain ⟨rfl, rfl⟩ := he'
      obtain ⟨x', c', hx', hc', rfl, rfl⟩ := (mem_g2n H bs _ _).1 hp
      dsimp only at he ⊢
      obtain ⟨e1, rfl⟩ := block_inj hc' hc he
      rw [(C26_global_numbering Gs _ H.D H.pos).2.1 _ _ hx' hx e1]
      apply hv
      · have := Int.mul_nonneg (show (0:Int) ≤ bs by omega) hr.1; omega
      · have : (bs:Int) * (flat Gs x + 1) ≤ bs * prod Gs := Int.mul_le_mul_of_nonneg_left (by omega) (by omega)
        rw [Int.mul_add] at this; omega
    · refine ⟨((bs:Int) * flat Gs x + c, (bs:Int) * appToPetsc W (flat Gs x) + c), ?_, rfl⟩
      unfold Grid.reverse
      rw [List.mem_map]
      exact ⟨_, (mem_g2n H bs _ _).2 ⟨x, c, hx, hc, rfl, rfl⟩, rfl⟩

end PetIGA.IO
