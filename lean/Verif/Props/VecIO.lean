import Verif.Model.VecIO
import Verif.Props.DM
import Verif.Props.IO
import Verif.Props.Coords
/-! Property theorems about `VecView` and `VecLoad` of the vectors of an IGA (C108). -/
set_option linter.unusedSectionVars false
namespace PetIGA.VIO
open PetIGA.Spec PetIGA.Part PetIGA.Lay PetIGA.Ax PetIGA.Grid PetIGA.Asm PetIGA.Dmda PetIGA.IO

variable {K : Type} [Field K] [LinearOrder K] [IsStrictOrderedRing K]

/-- Specification: the file with the values of the nodal field `u` on the grid with `Ns` nodes, node by node with the first direction fastest, the `bs`
values of a node one after the other; with PETSc's header unless headers are skipped. -/
def nodeFile (skip : Bool) (Ns : List Int) (bs : Nat) (u : List Int → Nat → K) : File K :=
  (if skip then [] else [.int vecClassid, .int (((indices Ns).length * bs : Nat) : Int)]) ++
    (indices Ns).flatMap fun x => (List.range bs).map fun c => .num (u x c)

variable {g2 : Guess2} {g3 : Guess3} {colloc : Bool} {size : Int} {procs : List Int} {axes axs : List (Axis K)} {Ls : List (Layout K)}

/-- Corners of a process. -/
def corners (L : Layout K) : List (Int × Int) := L.dir.map fun d => (d.nodeLstart, d.nodeLwidth)

theorem zip_get {α : Type} {l : List α} {p : α × Nat} (h : p ∈ l.zipIdx) : l[p.2]? = some p.1 := by
  obtain ⟨h1, h2⟩ := List.mem_zipIdx' h
  rw [h2]
  exact List.getElem?_eq_getElem h1

theorem nodeDMs_ok (S : Setup g2 g3 colloc size procs axes axs Ls) : nodeDMs Ls = .ok (Ls.zipIdx.map fun Lr => corners Lr.1) := by
  unfold nodeDMs
  exact Blk.sequence_ok (fun Lr : Layout K × Nat => nodeDM Ls Lr.1 Lr.2) (fun Lr => corners Lr.1) _ fun Lr h => (C82_node_dm S Lr.2 Lr.1 (zip_get h)).2

theorem gridSizes_ok (S : Setup g2 g3 colloc size procs axes axs Ls) : gridSizes Ls = axs.map Axis.nnp := by
  have hne := S.nonempty
  have hlen := S.ranks.1
  cases hL : Ls with
  | nil => rw [hL] at hlen; simp at hlen; omega
  | cons L l =>
    show L.dir.map Dir.nodeSize = _
    exact (C82_node_dm S 0 L (by rw [hL]; rfl)).1

theorem daSize_corners (bs : Nat) (L : Layout K) : daSize bs (corners L) = (prodOf (L.dir.map Dir.nodeLwidth)).toNat * bs := by
  unfold daSize corners
  rw [List.map_map]
  rfl

theorem indices_grid (Ns : List Int) : (box (Ns.map fun m => ((0:Int), m))) = indices Ns := (indices_box Ns).symm

/-- **C108**, contents: `VecView` of a vector on a binary viewer writes the values of the nodal field in the natural order of the grid of nodes, whatever the
number of processes. -/
theorem C108_view (S : Setup g2 g3 colloc size procs axes axs Ls) (skip : Bool) (bs : Nat) (gvec : Int → K) (u : List Int → Nat → K)
    (hu : Represents axs Ls bs gvec u) :
    view (.binary skip) Ls bs gvec = .ok (.file (nodeFile skip (axs.map Axis.nnp) bs u)) := by
  obtain ⟨D, hp⟩ := S.grid
  have wlen : (world (appWorld Ls)).length = Ls.length := by simp [world, appWorld]
  have hcopy : vecCopy (Ls.zipIdx.map fun Lr => vecPart Ls bs gvec Lr.2 Lr.1) ((Ls.zipIdx.map fun Lr => corners Lr.1).map (daSize bs)) =
      .ok (Ls.zipIdx.map fun Lr => vecPart Ls bs gvec Lr.2 Lr.1) := by
    unfold vecCopy
    rw [if_pos]
    rw [List.map_map, List.map_map]
    apply List.map_congr_left
    intro Lr _
    show (vecPart Ls bs gvec Lr.2 Lr.1).length = daSize bs (corners Lr.1)
    rw [daSize_corners]
    simp [vecPart]
  have hrow : ∀ x ∈ indices (axs.map Axis.nnp),
      ((Res.ofOption ((Ls.zipIdx.map fun Lr => (corners Lr.1, vecPart Ls bs gvec Lr.2 Lr.1)).find? fun p => decide (x ∈ box p.1))).bind fun p =>
        Blk.sequence ((List.range bs).map fun (c : Nat) => daGet p.1 bs p.2 x c)) = .ok ((List.range bs).map fun c => u x c) := by
    intro x hx
    have hx := (mem_indices _ _).1 hx
    obtain ⟨r, ⟨hr, hb⟩, -⟩ := D.part.owner x hx
    have h : Ls[r]? = some Ls[r] := List.getElem?_eq_getElem (by omega)
    obtain ⟨-, -, -, hg⟩ := S.get h
    cases hf : (Ls.zipIdx.map fun Lr => (corners Lr.1, vecPart Ls bs gvec Lr.2 Lr.1)).find? fun p => decide (x ∈ box p.1) with
    | none =>
      exfalso
      rw [List.find?_eq_none] at hf
      refine hf (corners Ls[r], vecPart Ls bs gvec r Ls[r]) (List.mem_map.2 ⟨(Ls[r], r), ?_, rfl⟩) ?_
      · rw [List.mem_zipIdx_iff_getElem?]
        exact h
      · rw [decide_eq_true_eq, mem_box]
        have os : ownStart (world (appWorld Ls)) r = Ls[r].dir.map Dir.nodeLstart := by rw [(own_get hg).1, List.map_map]; rfl
        have ow : ownWidth (world (appWorld Ls)) r = Ls[r].dir.map Dir.nodeLwidth := by rw [(own_get hg).2.1, List.map_map]; rfl
        rw [os, ow] at hb
        unfold corners
        rw [List.map_map, List.map_map]
        exact hb
    | some p =>
      have hmem := List.mem_of_find?_eq_some hf
      have hin := List.find?_some hf
      rw [decide_eq_true_eq] at hin
      obtain ⟨Lr, hLr, rfl⟩ := List.mem_map.1 hmem
      show Blk.sequence _ = _
      refine Blk.sequence_ok _ _ _ fun c hc => ?_
      obtain ⟨cs, e1, e2, -⟩ := C82_node_access S bs gvec u hu Lr.2 Lr.1 (zip_get hLr) x c (List.mem_range.1 hc)
      rw [(C82_node_dm S Lr.2 Lr.1 (zip_get hLr)).2] at e1
      cases e1
      exact e2 hin
  unfold view
  simp only [nodeDMs_ok S, gridSizes_ok S, Res.bind, hcopy]
  rw [List.zip_map', daView, indices_grid, Blk.sequence_ok _ _ _ hrow]
  show Res.ok (Shown.file (vecView skip _ _)) = _
  congr 2
  unfold vecView nodeFile
  have hlen : ((indices (axs.map Axis.nnp)).map fun x => (List.range bs).map fun c => u x c).flatten.length = (indices (axs.map Axis.nnp)).length * bs := by
    simp [List.length_flatten, Function.comp_def]
  rw [hlen]
  congr 1
  have key : ∀ l : List K, ((List.range l.length).map fun k : Nat => Tok.num (l.getD (k:Int).toNat 0)) = l.map Tok.num := by
    intro l
    apply List.ext_getElem?
    intro i
    rw [List.getElem?_map, List.getElem?_map]
    by_cases hi : i < l.length
    · rw [List.getElem?_range hi, List.getElem?_eq_getElem hi]
      simp [hi]
    · rw [List.getElem?_eq_none (by simpa using hi), List.getElem?_eq_none (by omega)]
      rfl
  rw [← hlen, key, List.map_flatten, List.map_map, List.flatMap_def]
  simp [Function.comp_def]

/-- The values in the file. -/
def nodeValues (Ns : List Int) (bs : Nat) (u : List Int → Nat → K) : List K := (indices Ns).flatMap fun x => (List.range bs).map (u x)

theorem range_getD (l : List K) {n : Nat} (hn : l.length = n) : ((List.range n).map fun k : Nat => l.getD (k:Int).toNat 0) = l := by
  subst hn
  apply List.ext_getElem?
  intro i
  rw [List.getElem?_map]
  by_cases hi : i < l.length
  · rw [List.getElem?_range hi, List.getElem?_eq_getElem hi]
    simp [hi]
  · rw [List.getElem?_eq_none (by simpa using hi), List.getElem?_eq_none (by omega)]
    rfl

theorem nodeValues_length (Ns : List Int) (bs : Nat) (u : List Int → Nat → K) : (nodeValues Ns bs u).length = (indices Ns).length * bs := by
  simp [nodeValues, List.length_flatMap]

theorem nodeFile_view (skip : Bool) (Ns : List Int) (bs : Nat) (u : List Int → Nat → K) :
    nodeFile skip Ns bs u = vecView skip ((indices Ns).length * bs) fun i => (nodeValues Ns bs u).getD i.toNat 0 := by
  unfold vecView nodeFile
  congr 1
  have h := congrArg (List.map Tok.num) (range_getD _ (nodeValues_length Ns bs u))
  rw [List.map_map] at h
  refine Eq.trans ?_ h.symm
  unfold nodeValues
  rw [List.map_flatMap]
  simp [Function.comp_def]

theorem grid_count {Ns : List Int} (h : ∀ n ∈ Ns, 1 ≤ n) : (indices Ns).length = (prodOf Ns).toNat := by
  have := length_box (Ns.map fun m => ((0:Int), m)) (by
    intro p hp
    obtain ⟨n, hn, rfl⟩ := List.mem_map.1 hp
    have := h n hn
    show (0:Int) ≤ n
    omega)
  rw [← indices_box, List.map_map] at this
  rw [prodOf_eq]
  have e : (Ns.map (Prod.snd ∘ fun m => ((0:Int), m))) = Ns := by simp [Function.comp_def]
  rw [e] at this
  omega

theorem nodeValues_at {Ns : List Int} (bs : Nat) (u : List Int → Nat → K) {x : List Int} (hx : InBox Ns x) {c : Nat} (hc : c < bs) :
    (nodeValues Ns bs u).getD ((natural 1 Ns x).toNat * bs + c) 0 = u x c := by
  have h1 : (x, (flat Ns x).toNat) ∈ (indices Ns).zipIdx := by
    rw [zipIdx_indices]; exact List.mem_map.2 ⟨x, (mem_indices _ _).2 hx, rfl⟩
  have h2 := zip_get h1
  rw [natural_one, List.getD_eq_getElem?_getD, nodeValues, Crd.flatMap_get bs u _ _ c x h2 hc]
  rfl

theorem corners_inside (S : Setup g2 g3 colloc size procs axes axs Ls) {L : Layout K} (hL : L ∈ Ls) {x : List Int} (hx : x ∈ box (corners L)) :
    InBox (axs.map Axis.nnp) x := by
  obtain ⟨r, hr, h⟩ := List.mem_iff_getElem.1 hL
  have h : Ls[r]? = some L := by rw [List.getElem?_eq_getElem hr, h]
  obtain ⟨-, -, -, hg⟩ := S.get h
  obtain ⟨D, hp⟩ := S.grid
  have os : ownStart (world (appWorld Ls)) r = L.dir.map Dir.nodeLstart := by rw [(own_get hg).1, List.map_map]; rfl
  have ow : ownWidth (world (appWorld Ls)) r = L.dir.map Dir.nodeLwidth := by rw [(own_get hg).2.1, List.map_map]; rfl
  have this := D.part.inside r (rank_lt hg)
  rw [os, ow] at this
  rw [mem_box] at hx
  unfold corners at hx
  rw [List.map_map, List.map_map] at hx
  change InBlock (L.dir.map Dir.nodeLstart) (L.dir.map Dir.nodeLwidth) x at hx
  generalize axs.map Axis.nnp = Ns at this
  revert this
  generalize L.dir.map Dir.nodeLstart = ss at hx ⊢
  generalize L.dir.map Dir.nodeLwidth = ls at hx ⊢
  intro hb
  induction hb generalizing x with
  | nil => cases hx; exact .nil
  | cons q1 q2 ih =>
    cases hx with
    | cons p1 p2 => exact .cons ⟨by omega, by omega⟩ (ih p2)

theorem blocks_pos {Ns ss ls : List Int} (h : Blocks Ns ss ls) : ∀ l ∈ ls, 0 ≤ l := by
  induction h with
  | nil => simp
  | cons q _ ih =>
    intro l hl
    rcases List.mem_cons.1 hl with rfl | hl
    · omega
    · exact ih l hl

/-- **C108**, round trip: `VecLoad` of a file with the values of a nodal field gives a vector that stores this field, whatever the number of processes, and
leaves the rest of the file to be read. -/
theorem C108_load (S : Setup g2 g3 colloc size procs axes axs Ls) (skip : Bool) (bs : Nat) (u : List Int → Nat → K) (rest : File K) :
    ∃ gvec, load skip Ls bs (nodeFile skip (axs.map Axis.nnp) bs u ++ rest) = .ok (gvec, rest) ∧ Represents axs Ls bs gvec u := by
  obtain ⟨D, hp⟩ := S.grid
  have hn : ((prodOf (axs.map Axis.nnp)).toNat * bs) = (indices (axs.map Axis.nnp)).length * bs := by rw [grid_count hp]
  have hparts : ((Ls.zipIdx.map fun Lr => corners Lr.1).map fun cs => (box cs).flatMap fun x => (List.range bs).map fun (c : Nat) =>
      (nodeValues (axs.map Axis.nnp) bs u).getD ((natural 1 (axs.map Axis.nnp) x).toNat * bs + c) 0) =
      Ls.map fun L => (box (corners L)).flatMap fun y => (List.range bs).map (u y) := by
    rw [List.map_map]
    have e : Ls.map (fun L => (box (corners L)).flatMap fun y => (List.range bs).map (u y)) =
        Ls.zipIdx.map ((fun L => (box (corners L)).flatMap fun y => (List.range bs).map (u y)) ∘ Prod.fst) := by
      rw [← List.map_map, List.zipIdx_map_fst]
    rw [e]
    apply List.map_congr_left
    intro Lr hLr
    show List.flatMap _ _ = List.flatMap _ _
    apply List.flatMap_congr
    intro x hx
    apply List.map_congr_left
    intro c hc
    exact nodeValues_at bs u (corners_inside S (List.mem_of_getElem? (zip_get hLr)) hx) (List.mem_range.1 hc)
  have hcopy : vecCopy (Ls.map fun L => (box (corners L)).flatMap fun y => (List.range bs).map (u y)) (vecSizes Ls bs) =
      .ok (Ls.map fun L => (box (corners L)).flatMap fun y => (List.range bs).map (u y)) := by
    unfold vecCopy vecSizes
    rw [if_pos]
    rw [List.map_map]
    apply List.map_congr_left
    intro L hL
    show ((box (corners L)).flatMap fun y => (List.range bs).map (u y)).length = _
    rw [List.length_flatMap]
    simp only [List.length_map, List.length_range, List.map_const', List.sum_replicate, smul_eq_mul]
    congr 1
    have := length_box (corners L) (by
      intro p hp
      obtain ⟨d, hd, rfl⟩ := List.mem_map.1 hp
      obtain ⟨r, hr, h⟩ := List.mem_iff_getElem.1 hL
      have h : Ls[r]? = some L := by rw [List.getElem?_eq_getElem hr, h]
      obtain ⟨-, -, -, hg⟩ := S.get h
      have ow : ownWidth (world (appWorld Ls)) r = L.dir.map Dir.nodeLwidth := by rw [(own_get hg).2.1, List.map_map]; rfl
      exact blocks_pos (D.part.inside r (rank_lt hg)) _ (by rw [ow]; exact List.mem_map.2 ⟨d, hd, rfl⟩))
    unfold corners at this ⊢
    rw [List.map_map] at this
    rw [prodOf_eq]
    change _ = Spec.prod (L.dir.map Dir.nodeLwidth) at this
    omega
  refine ⟨Crd.vec (Ls.map fun L => (box (corners L)).flatMap fun y => (List.range bs).map (u y)), ?_, Crd.represents_local S bs u _ rfl⟩
  unfold load daLoad
  rw [nodeDMs_ok S, gridSizes_ok S, nodeFile_view]
  simp only [Res.bind, hn, vecLoad_ok, range_getD _ (nodeValues_length _ bs u), hparts, hcopy]
  rfl

/-- **C108**: written by any number of processes, read by any other. -/
theorem C108_round_trip {g2' : Guess2} {g3' : Guess3} {size' : Int} {procs' : List Int} {axes' : List (Axis K)} {Ls' : List (Layout K)}
    (S : Setup g2 g3 colloc size procs axes axs Ls) (S' : Setup g2' g3' colloc size' procs' axes' axs Ls') (skip : Bool) (bs : Nat) (gvec : Int → K)
    (u : List Int → Nat → K) (hu : Represents axs Ls bs gvec u) (rest : File K) :
    ∃ f, view (.binary skip) Ls bs gvec = .ok (.file f) ∧ ∃ gvec', load skip Ls' bs (f ++ rest) = .ok (gvec', rest) ∧ Represents axs Ls' bs gvec' u :=
  ⟨_, C108_view S skip bs gvec u hu, C108_load S' skip bs u rest⟩

theorem vecLoad_size {n m : Nat} (h : m ≠ n) (v : Int → K) (rest : File K) : vecLoad false n (vecView false m v ++ rest) = .err .fileUnexpected := by
  unfold vecLoad vecView
  simp only [Bool.false_eq_true, if_false, List.cons_append, List.nil_append, readInt, Res.bind]
  rw [show check True Err.wrong = .ok () from rfl]
  dsimp only
  unfold check
  rw [if_neg (by exact_mod_cast h)]

/-- **C108**: a file with a vector of another length is refused. -/
theorem C108_wrong_size (S : Setup g2 g3 colloc size procs axes axs Ls) (bs n : Nat) (v : Int → K) (rest : File K)
    (hn : (n : Int) ≠ Spec.prod (axs.map Axis.nnp) * bs) : load false Ls bs (vecView false n v ++ rest) = .err .fileUnexpected := by
  obtain ⟨D, hp⟩ := S.grid
  have h0 : 0 ≤ Spec.prod (axs.map Axis.nnp) := prod_nonneg' fun n hn => by have := hp n hn; omega
  unfold load daLoad
  rw [nodeDMs_ok S, gridSizes_ok S]
  simp only [Res.bind]
  rw [vecLoad_size]
  rw [prodOf_eq]
  intro e
  apply hn
  rw [e]
  push_cast
  rw [Int.toNat_of_nonneg h0]

/-! ### The files of `IGASaveVec` -/

theorem netSizes_eq (S : Setup g2 g3 colloc size procs axes axs Ls) (hper : ∀ ax ∈ axs, ax.periodic = false) : netSizes axs = axs.map Axis.nnp := by
  unfold netSizes
  apply List.map_congr_left
  intro ax hax
  exact ((nnp_bounds (Prb.setup_wf S ax hax)).2.2.1 (hper ax hax)).symm

theorem rel_zero : ∀ {Ns y : List Int}, InBox Ns y → rel (Ns.map fun _ => 0) y = y
  | _, _, .nil => rfl
  | _, _, .cons (a := n) (b := i) h1 h2 => by
    have ih := rel_zero h2
    unfold rel at ih ⊢
    rw [List.map_cons, List.zipWith_cons_cons, ih]
    simp

theorem modAll_self : ∀ {Ns y : List Int}, InBox Ns y → modAll Ns y = y
  | _, _, .nil => rfl
  | _, _, .cons (a := n) (b := i) h1 h2 => by
    have ih := modAll_self h2
    unfold modAll at ih ⊢
    rw [List.zipWith_cons_cons, ih, Int.emod_eq_of_lt h1.1 h1.2]

theorem nodeShifts_zero (S : Setup g2 g3 colloc size procs axes axs Ls) (hper : ∀ ax ∈ axs, ax.periodic = false) :
    nodeShifts colloc axs = (axs.map Axis.nnp).map fun _ => 0 := by
  unfold nodeShifts
  rw [List.map_map]
  apply List.map_congr_left
  intro ax hax
  have := (nnp_bounds (Prb.setup_wf S ax hax)).2.2.1 (hper ax hax)
  show (if colloc then _ else _) = (0:Int)
  split_ifs
  · omega
  · rfl

/-- **C108**: without periodic directions `VecView` writes the same file as `IGASaveVec`, so each can be read with `VecLoad` and with `IGALoadVec`.
(Missing: periodic directions, see `C108_periodic_refuted`.) -/
theorem C108_same_file_partial (S : Setup g2 g3 colloc size procs axes axs Ls) (hE : colloc = true → ∀ ax ∈ axs, EndSpans ax)
    (hper : ∀ ax ∈ axs, ax.periodic = false) (skip : Bool) (mem : Int → K) (bs : Nat) (gvec : Int → K) (u : List Int → Nat → K)
    (hu : Represents axs Ls bs gvec u) :
    ∃ f, view (.binary skip) Ls bs gvec = .ok (.file f) ∧ saveVec skip mem (appWorld Ls) bs gvec = .ok f := by
  refine ⟨_, C108_view S skip bs gvec u hu, ?_⟩
  obtain ⟨v, e, h⟩ := C73_vector_file_partial S hE skip mem bs gvec u hu
  have hnet := netSizes_eq S hper
  obtain ⟨D, hp⟩ := S.grid
  have hP : 0 ≤ Spec.prod (axs.map Axis.nnp) := prod_nonneg' fun n hn => by have := hp n hn; omega
  rw [e, nodeFile_view]
  congr 1
  rw [hnet] at h ⊢
  have hlen : (indices (axs.map Axis.nnp)).length * bs = ((bs:Int) * Spec.prod (axs.map Axis.nnp)).toNat := by
    rw [grid_count hp, prodOf_eq]
    zify
    rw [Int.toNat_of_nonneg hP, Int.toNat_of_nonneg (by positivity), mul_comm]
  rw [hlen]
  refine vecView_congr hp skip fun x c hx hc => ?_
  rw [h x hx c hc, nodeShifts_zero S hper, rel_zero hx, modAll_self hx]
  have := nodeValues_at bs u hx hc
  rw [natural_one] at this
  rw [← this]
  congr 1
  have f0 := (flat_range hx).1
  zify
  rw [Int.toNat_of_nonneg f0, Int.toNat_of_nonneg (by positivity)]
  ring

theorem prod_strict : ∀ {As Bs : List Int}, List.Forall₂ (fun a b => 1 ≤ a ∧ a ≤ b) As Bs →
    1 ≤ Spec.prod As ∧ Spec.prod As ≤ Spec.prod Bs ∧ ((∃ p ∈ List.zip As Bs, p.1 < p.2) → Spec.prod As < Spec.prod Bs)
  | _, _, .nil => by simp [Spec.prod]
  | _, _, .cons (a := a) (b := b) (l₁ := As) (l₂ := Bs) h1 h2 => by
    obtain ⟨i1, i2, i3⟩ := prod_strict h2
    rw [Spec.prod, Spec.prod]
    refine ⟨by nlinarith, by nlinarith, ?_⟩
    rintro ⟨p, hp, hlt⟩
    rw [List.zip_cons_cons, List.mem_cons] at hp
    rcases hp with rfl | hp
    · dsimp only at hlt
      nlinarith
    · have := i3 ⟨p, hp, hlt⟩
      nlinarith

/-- **C108**: with a periodic direction a file written with `VecView` has fewer values than one written with `IGASaveVec`: `IGALoadVec` refuses it. -/
theorem C108_periodic_refuted (S : Setup g2 g3 colloc size procs axes axs Ls) (hE : colloc = true → ∀ ax ∈ axs, EndSpans ax)
    (hper : ∃ ax ∈ axs, ax.periodic = true) (bs : Nat) (hbs : 0 < bs) (gvec old : Int → K) (u : List Int → Nat → K)
    (hu : Represents axs Ls bs gvec u) (rest : File K) :
    ∃ f, view (.binary false) Ls bs gvec = .ok (.file f) ∧ loadVec false (appWorld Ls) bs old (f ++ rest) = .err .fileUnexpected := by
  refine ⟨_, C108_view S false bs gvec u hu, ?_⟩
  obtain ⟨H, hp, hN⟩ := app_grid S hE
  unfold loadVec
  rw [nodeFile_view, hN, vecLoad_size]
  · rfl
  have hst := prod_strict (As := axs.map Axis.nnp) (Bs := netSizes axs) (by
    unfold netSizes
    rw [List.forall₂_map_left_iff, List.forall₂_map_right_iff, List.forall₂_same]
    intro ax hax
    exact ⟨hp _ (List.mem_map.2 ⟨ax, hax, rfl⟩), (nnp_bounds (Prb.setup_wf S ax hax)).2.1⟩)
  obtain ⟨ax, hax, hperiodic⟩ := hper
  have hlt := hst.2.2 ⟨(ax.nnp, ax.m - ax.p), by
    unfold netSizes
    rw [List.zip_map']
    exact List.mem_map.2 ⟨ax, hax, rfl⟩, by
    have := (nnp_bounds (Prb.setup_wf S ax hax)).2.2.2 hperiodic
    show ax.nnp < ax.m - ax.p
    omega⟩
  rw [grid_count hp, prodOf_eq]
  intro heq
  have : ((Spec.prod (axs.map Axis.nnp)).toNat : Int) * bs = (bs:Int) * Spec.prod (netSizes axs) := by
    have := congrArg (fun n : Nat => (n : Int)) heq
    push_cast at this
    rw [this]
    have h1 := hst.1
    rw [Int.toNat_of_nonneg]
    have hb : (0:Int) < bs := by exact_mod_cast hbs
    nlinarith
  rw [Int.toNat_of_nonneg (by linarith [hst.1])] at this
  have hb : (0:Int) < bs := by exact_mod_cast hbs
  nlinarith

/-- Non-vacuity: a grid with a periodic direction on 4 processes, read by 1; and the file is refused by `IGALoadVec`. -/
example (g2 : Guess2) (g3 : Guess3) (u : List Int → Nat → ℚ) : ∃ (Ls Ls' : List (Layout ℚ)) (gvec gvec' : Int → ℚ) (f : File ℚ),
    Ls.length = 4 ∧ Ls'.length = 1 ∧ Represents exAxs Ls 3 gvec u ∧ view (.binary false) Ls 3 gvec = .ok (.file f) ∧
      load false Ls' 3 f = .ok (gvec', []) ∧ Represents exAxs Ls' 3 gvec' u ∧
      (∀ old, loadVec false (appWorld Ls) 3 old f = .err .fileUnexpected) ∧ ∀ v, load false Ls 3 (vecView false 24 v) = .err .fileUnexpected := by
  obtain ⟨Ls, S⟩ := exSetup g2 g3
  obtain ⟨Ls', S'⟩ := exSetup1 g2 g3
  obtain ⟨gvec, hu⟩ := represents_exists S 3 u
  obtain ⟨f, hf, gvec', hl, hu'⟩ := C108_round_trip S S' false 3 gvec u hu []
  refine ⟨Ls, Ls', gvec, gvec', f, by have := S.ranks.1; omega, by have := S'.ranks.1; omega, hu, hf, by rwa [List.append_nil] at hl, hu', ?_, ?_⟩
  · intro old
    obtain ⟨f', hf', h⟩ := C108_periodic_refuted S (by simp) ⟨_, List.mem_cons_self, by decide +kernel⟩ 3 (by omega) gvec old u hu []
    rw [hf] at hf'
    injection hf' with e
    injection e with e
    rw [List.append_nil, ← e] at h
    exact h
  · intro v
    have h := C108_wrong_size S 3 24 v [] (by
      have : Spec.prod (exAxs.map Axis.nnp) = 18 := by decide +kernel
      rw [this]; norm_num)
    rwa [List.append_nil] at h

end PetIGA.VIO
