import Verif.Model.MatIO
import Verif.Props.Assemble
import Verif.Props.Mat
/-! Property theorems about matrices written to and read from files (C100). -/
set_option linter.unusedSectionVars false
namespace PetIGA.MIO
open PetIGA.Spec PetIGA.Part PetIGA.Lay PetIGA.Ax PetIGA.Grid PetIGA.Asm

variable {K : Type} [Field K] [LinearOrder K] [IsStrictOrderedRing K] {V : Type}
variable {Ns : List Int} {W : World}

theorem stride_succ (f : Int → Int) (a b : Nat) (first : Int) :
    (strideIS a first).map f ++ (strideIS b (first + a)).map f = (strideIS (a + b) first).map f := by
  rw [← List.map_append]
  congr 1
  unfold strideIS
  rw [List.range_add, List.map_append, List.map_map]
  congr 1
  apply List.map_congr_left
  intro k _
  simp only [Function.comp]
  push_cast; ring

theorem indexSet_eq (f : Int → Int) (D : Decomposed Ns W) {bs : Nat} (hb : 1 ≤ bs) (r : Nat) :
    indexSet f W bs r = blockIS bs ((strideIS (offset W (r+1) - offset W r).toNat (offset W r)).map f) := by
  have e1 : ((bs:Int) * offset W (r+1) - (bs:Int) * offset W r) / (bs:Int) = offset W (r+1) - offset W r := by
    rw [← Int.mul_sub, Int.mul_ediv_cancel_left _ (by omega)]
  have e2 : ((bs:Int) * offset W r) / (bs:Int) = offset W r := Int.mul_ediv_cancel_left _ (by omega)
  simp only [indexSet, rowRange, e1, e2]
  split
  · rfl
  · have : bs = 1 := by omega
    subst this
    simp [blockIS, List.flatMap_singleton']

theorem blockIS_append (bs : Nat) (a b : List Int) : blockIS bs (a ++ b) = blockIS bs a ++ blockIS bs b := by
  simp [blockIS]

theorem parallel_prefix (f : Int → Int) (D : Decomposed Ns W) {bs : Nat} (hb : 1 ≤ bs) : ∀ r : Nat, r ≤ W.length →
    (List.range r).flatMap (indexSet f W bs) = blockIS bs ((strideIS (offset W r).toNat 0).map f)
  | 0, _ => by simp [offset, strideIS, blockIS]
  | r+1, h => by
    rw [List.range_succ, List.flatMap_append, parallel_prefix f D hb r (by omega)]
    simp only [List.flatMap_cons, List.flatMap_nil, List.append_nil]
    rw [indexSet_eq f D hb, ← blockIS_append]
    have m0 := offset_mono D (r := 0) (r' := r) (by omega)
    have m1 := offset_mono D (r := r) (r' := r+1) (by omega)
    have z : offset W 0 = 0 := by simp [offset]
    have e := stride_succ f (offset W r).toNat (offset W (r+1) - offset W r).toNat 0
    have c : (0:Int) + ((offset W r).toNat : Int) = offset W r := by omega
    rw [c] at e
    rw [e, show (offset W r).toNat + (offset W (r+1) - offset W r).toNat = (offset W (r+1)).toNat by omega]

/-- Entry `bs*b + c` of the parallel index set. -/
theorem parallel_get (f : Int → Int) (D : Decomposed Ns W) (hNs : ∀ n ∈ Ns, 1 ≤ n) {bs : Nat} {b : Int} {c : Nat} (hc : c < bs)
    (h0 : 0 ≤ b) (h1 : b < prod Ns) :
    (parallelIS f W bs)[((bs:Int) * b + c).toNat]? = some ((bs:Int) * f b + c) := by
  unfold parallelIS
  rw [parallel_prefix f D (by omega) _ (le_refl _), offset_length D hNs]
  obtain ⟨n, rfl⟩ := Int.eq_ofNat_of_zero_le h0
  have e : ((bs:Int) * (n:Int) + c).toNat = c + bs * n := by
    rw [show ((bs:Int) * (n:Int) + c) = ((c + bs * n : Nat) : Int) by push_cast; ring]
    rfl
  have hn : n < (prod Ns).toNat := by omega
  have hg : ((strideIS (prod Ns).toNat 0).map f)[n]? = some (f n) := by
    simp [strideIS, hn]
  rw [e, blockIS_get bs _ c n hc, hg]
  rfl

/-- An entry of the permuted matrix. -/
theorem sub_entry (f : Int → Int) (D : Decomposed Ns W) (hNs : ∀ n ∈ Ns, 1 ≤ n) (A : Entries V) {bs : Nat} {a b : Int} {c d : Nat}
    (hc : c < bs) (hd : d < bs) (a0 : 0 ≤ a) (a1 : a < prod Ns) (b0 : 0 ≤ b) (b1 : b < prod Ns) :
    subMatrix A (parallelIS f W bs) ((bs:Int) * a + c) ((bs:Int) * b + d) = A ((bs:Int) * f a + c) ((bs:Int) * f b + d) := by
  have ha : 0 ≤ (bs:Int) * a := Int.mul_nonneg (by omega) a0
  have hb : 0 ≤ (bs:Int) * b := Int.mul_nonneg (by omega) b0
  unfold subMatrix
  rw [if_neg (by omega), parallel_get f D hNs hc a0 a1, parallel_get f D hNs hd b0 b1]

theorem petscToApp_glob (D : Decomposed Ns W) {x : List Int} (hx : InBox Ns x) :
    petscToApp W (appToPetsc W (flat Ns x)) = flat Ns x := by
  have hm := mem_apps D hx
  unfold petscToApp appToPetsc
  rw [if_pos hm, if_neg (by omega), Int.toNat_natCast, List.getElem?_idxOf hm]
  rfl

/-- The only block of a partition is the whole grid. -/
theorem whole {Ns s l : List Int} (hb : Blocks Ns s l) : (∀ n ∈ Ns, 1 ≤ n) → (∀ x, InBox Ns x → InBlock s l x) →
    ∀ x, InBox Ns x → flat l (rel s x) = flat Ns x := by
  induction hb with
  | nil => intro _ _ x hx; cases hx; rfl
  | @cons N s l Ns ss ls h hb ih =>
    intro hN hI x hx
    have hN' : ∀ n ∈ Ns, 1 ≤ n := fun n hn => hN n (by simp [hn])
    cases hx with
    | cons h1 h2 =>
      rename_i i is
      have n1 := hN N (by simp)
      have hlo := hI (0 :: is) (.cons (by omega) h2)
      have hhi := hI ((N-1) :: is) (.cons (by omega) h2)
      have e : s = 0 ∧ l = N := by
        cases hlo with
        | cons a1 _ => cases hhi with
          | cons b1 _ => omega
      have ih := ih hN' (fun y hy => by
        have := hI (i :: y) (.cons h1 hy)
        cases this with
        | cons _ b => exact b) is h2
      obtain ⟨rfl, rfl⟩ := e
      show (i - 0) + l * flat ls (rel ss is) = i + l * flat Ns is
      rw [ih]; ring

/-- With one process the global numbering is the natural one. -/
theorem one_process (D : Decomposed Ns W) (hNs : ∀ n ∈ Ns, 1 ≤ n) (h1 : W.length = 1) {x : List Int} (hx : InBox Ns x) :
    appToPetsc W (flat Ns x) = flat Ns x := by
  obtain ⟨g, hg⟩ := get_of_lt (W := W) (r := 0) (by omega)
  have hI : ∀ y, InBox Ns y → InBlock (g.map GDir.lstart) (g.map GDir.lwidth) y := by
    intro y hy
    obtain ⟨r, ⟨r1, r2⟩, -⟩ := D.part.owner y hy
    have : r = 0 := by omega
    subst this
    rwa [(own_get hg).1, (own_get hg).2.1] at r2
  rw [(glob_own D hg (hI x hx)).1, whole (own_blocks D hg) hNs hI x hx]
  simp [offset]

/-! ### C100 -/

theorem ops_of_create (is : Bool) (W : World) :
    createOps is W = ⟨!is && decide (W.length > 1), !is && decide (W.length > 1), true, true, true⟩ := by
  unfold createOps plain
  cases is <;> by_cases h : W.length > 1 <;> simp [h]

/-- Any number of duplications of a matrix. -/
inductive Copies : Ops → Ops → Prop
  | self (o : Ops) : Copies o o
  | step {o o' o'' : Ops} : Copies o o' → duplicate o' = .ok o'' → Copies o o''

/-- **C100**, copies: a matrix obtained with `IGACreateMat` can be duplicated and every copy, however often copied, reads and writes
files like the original and makes vectors with the layout of the `IGA`. -/
theorem C100_duplicates (is : Bool) (W : World) (o : Ops) (h : Copies (createOps is W) o) :
    o = createOps is W ∧ ∃ o', duplicate o = .ok o' := by
  have key : duplicate (createOps is W) = .ok (createOps is W) := by
    rw [ops_of_create]
    cases is <;> by_cases h : W.length > 1 <;> simp [h, duplicate, plain]
  generalize createOps is W = q at h key
  induction h with
  | self => exact ⟨rfl, _, key⟩
  | step a b ih =>
    obtain ⟨rfl, -⟩ := ih
    rw [key] at b
    cases b
    exact ⟨rfl, _, key⟩

section
variable {g2 g2' : Guess2} {g3 g3' : Guess3} {colloc : Bool} {size size' : Int} {procs procs' : List Int}
  {axes axes' axs : List (Axis K)} {Ls Ls' : List (Layout K)}

/-- The matrix has, in the row of component `c` of node `z` and the column of component `d` of node `w`, the entry `a z c w d`
(`none`: nothing stored). -/
def Holds (axs : List (Axis K)) (Ls : List (Layout K)) (dof : Nat) (A : Entries V)
    (a : List Int → Nat → List Int → Nat → Option V) : Prop := RepresentsMat axs Ls dof (fun ij => A ij.1 ij.2) a

/-- The file has the entry `a z c w d` in row `dof*(z₀ + n₀*(z₁ + …)) + c` and column `dof*(w₀ + n₀*(w₁ + …)) + d`. -/
def FileHolds (axs : List (Axis K)) (dof : Nat) (f : File V) (a : List Int → Nat → List Int → Nat → Option V) : Prop :=
  f.order = (dof:Int) * prod (axs.map Axis.nnp) ∧
  ∀ z (c : Nat) w (d : Nat), InBox (axs.map Axis.nnp) z → InBox (axs.map Axis.nnp) w → c < dof → d < dof →
    f.entries ((dof:Int) * flat (axs.map Axis.nnp) z + c) ((dof:Int) * flat (axs.map Axis.nnp) w + d) = a z c w d

/-- The processes of the matrix. -/
abbrev ranks (Ls : List (Layout K)) : World := world (appWorld Ls)

theorem ranks_pos (S : Setup g2 g3 colloc size procs axes axs Ls) : 1 ≤ (ranks Ls).length := by
  have h1 := S.ranks.1
  have h2 := S.nonempty
  simp only [ranks, world, appWorld, List.length_map]
  omega

/-- **C100**, writing: whatever the number of processes, the file has the entries of the matrix in the natural order of the nodes. -/
theorem C100_matrix_file (S : Setup g2 g3 colloc size procs axes axs Ls) (dof : Nat)
    (A : Entries V) (a : List Int → Nat → List Int → Nat → Option V) (hA : Holds axs Ls dof A a) :
    ∃ f, matView (createOps false (ranks Ls)) (ranks Ls) dof A = .ok f ∧ FileHolds axs dof f a := by
  obtain ⟨D, hNs⟩ := S.grid
  have hp := ranks_pos S
  rw [ops_of_create]
  have ho : order (ranks Ls) dof = (dof:Int) * prod (axs.map Axis.nnp) := by
    unfold order ranks; rw [offset_length D hNs]
  by_cases h : (ranks Ls).length > 1
  · refine ⟨matViewMPI (ranks Ls) dof A, by simp [matView, h], ho, ?_⟩
    intro z c w d hz hw hc hd
    have rz := flat_range hz
    have rw' := flat_range hw
    show subMatrix A _ _ _ = _
    rw [sub_entry _ D hNs A hc hd rz.1 rz.2 rw'.1 rw'.2]
    exact hA z c w d hz hw hc hd
  · refine ⟨⟨order (ranks Ls) dof, A⟩, by simp [matView, h], ho, ?_⟩
    intro z c w d hz hw hc hd
    have := hA z c w d hz hw hc hd
    rw [one_process D hNs (by show (ranks Ls).length = 1; omega) hz, one_process D hNs (by show (ranks Ls).length = 1; omega) hw] at this
    exact this

/-- **C100**, reading: a file with the entries `a` in the natural order, read on any number of processes into a matrix made with
`IGACreateMat` whose nonzero pattern is that of the file, gives the matrix with the entries `a`. -/
theorem C100_matrix_load (S : Setup g2 g3 colloc size procs axes axs Ls) (dof : Nat)
    (f : File V) (a : List Int → Nat → List Int → Nat → Option V) (hf : FileHolds axs dof f a)
    (B : Entries V) (b : List Int → Nat → List Int → Nat → Option V) (hB : Holds axs Ls dof B b)
    (hp : ∀ z (c : Nat) w (d : Nat), InBox (axs.map Axis.nnp) z → InBox (axs.map Axis.nnp) w → c < dof → d < dof →
      (a z c w d).isSome = (b z c w d).isSome) :
    ∃ B', matLoad (createOps false (ranks Ls)) (ranks Ls) dof B f = .ok B' ∧ Holds axs Ls dof B' a := by
  obtain ⟨D, hNs⟩ := S.grid
  have hpos := ranks_pos S
  rw [ops_of_create]
  obtain ⟨fo, fe⟩ := hf
  have ho : order (ranks Ls) dof = (dof:Int) * prod (axs.map Axis.nnp) := by
    unfold order ranks; rw [offset_length D hNs]
  by_cases h : (ranks Ls).length > 1
  · have hS : Holds axs Ls dof (subMatrix f.entries (parallelIS (petscToApp (ranks Ls)) (ranks Ls) dof)) a := by
      intro z c w d hz hw hc hd
      obtain ⟨z0, z1⟩ := (C26_global_numbering _ _ D hNs).1 z hz
      obtain ⟨w0, w1⟩ := (C26_global_numbering _ _ D hNs).1 w hw
      have e := sub_entry (petscToApp (ranks Ls)) D hNs f.entries hc hd z0 z1 w0 w1
      rw [petscToApp_glob D hz, petscToApp_glob D hw] at e
      exact e.trans (fe z c w d hz hw hc hd)
    have split : ∀ i : Nat, i < (order (ranks Ls) dof).toNat → ∃ z, ∃ c : Nat, InBox (axs.map Axis.nnp) z ∧ c < dof ∧
        (i:Int) = (dof:Int) * appToPetsc (ranks Ls) (flat (axs.map Axis.nnp) z) + c := by
      intro i hi
      rw [ho] at hi
      obtain ⟨k, c, k0, k1, hc, e⟩ := index_split (bs := dof) (N := prod (axs.map Axis.nnp)) (i := (i:Int)) (by omega) (by omega)
      obtain ⟨z, hz, e'⟩ := (C26_global_numbering _ _ D hNs).2.2.1 k k0 k1
      exact ⟨z, c, hz, hc, by rw [e']; exact e⟩
    refine ⟨subMatrix f.entries (parallelIS (petscToApp (ranks Ls)) (ranks Ls) dof), ?_, hS⟩
    have hs : samePattern (order (ranks Ls) dof).toNat
        (subMatrix f.entries (parallelIS (petscToApp (ranks Ls)) (ranks Ls) dof)) B = true := by
      unfold samePattern
      rw [List.all_eq_true]
      intro i hi
      rw [List.mem_range] at hi
      rw [List.all_eq_true]
      intro j hj
      rw [List.mem_range] at hj
      obtain ⟨z, c, hz, hc, ez⟩ := split i hi
      obtain ⟨w, d, hw, hd, ew⟩ := split j hj
      rw [beq_iff_eq, ez, ew]
      have h1 := hS z c w d hz hw hc hd
      have h2 := hB z c w d hz hw hc hd
      dsimp only at h1 h2
      exact (congrArg Option.isSome h1).trans ((hp z c w d hz hw hc hd).trans (congrArg Option.isSome h2).symm)
    simp [matLoad, h, matLoadMPI, fo, ho]
    rw [← ho]
    simp [matCopy, hs]
  · refine ⟨f.entries, by simp [matLoad, h, fo, ho], ?_⟩
    intro z c w d hz hw hc hd
    rw [one_process D hNs (by show (ranks Ls).length = 1; omega) hz, one_process D hNs (by show (ranks Ls).length = 1; omega) hw]
    exact fe z c w d hz hw hc hd

/-- **C100**: a file of a matrix of another order (another number of nodes or of components) is rejected, whatever the number of processes. -/
theorem C100_rejects (S : Setup g2 g3 colloc size procs axes axs Ls) (dof : Nat) (B : Entries V) (f : File V)
    (hf : f.order ≠ (dof:Int) * prod (axs.map Axis.nnp)) :
    matLoad (createOps false (ranks Ls)) (ranks Ls) dof B f = .err .lib := by
  obtain ⟨D, hNs⟩ := S.grid
  rw [ops_of_create]
  have ho : order (ranks Ls) dof = (dof:Int) * prod (axs.map Axis.nnp) := by
    unfold order ranks; rw [offset_length D hNs]
  by_cases h : (ranks Ls).length > 1 <;> simp [matLoad, h, matLoadMPI, ho, hf]

/-- **C100**, round trip: a matrix written by any number of processes and read by any other number, into a matrix with the same
nonzero pattern, is the same matrix: the entry of every pair of unknowns is the one it had. -/
theorem C100_round_trip (S : Setup g2 g3 colloc size procs axes axs Ls) (S' : Setup g2' g3' colloc size' procs' axes' axs Ls')
    (dof : Nat) (A : Entries V) (a : List Int → Nat → List Int → Nat → Option V) (hA : Holds axs Ls dof A a)
    (B : Entries V) (b : List Int → Nat → List Int → Nat → Option V) (hB : Holds axs Ls' dof B b)
    (hp : ∀ z (c : Nat) w (d : Nat), InBox (axs.map Axis.nnp) z → InBox (axs.map Axis.nnp) w → c < dof → d < dof →
      (a z c w d).isSome = (b z c w d).isSome) :
    ∃ f B', matView (createOps false (ranks Ls)) (ranks Ls) dof A = .ok f ∧
      matLoad (createOps false (ranks Ls')) (ranks Ls') dof B f = .ok B' ∧ Holds axs Ls' dof B' a := by
  obtain ⟨f, e, hf⟩ := C100_matrix_file S dof A a hA
  obtain ⟨B', e', hB'⟩ := C100_matrix_load S' dof f a hf B b hB hp
  exact ⟨f, B', e, e', hB'⟩

theorem glob_eq {Ns : List Int} {W : World} (D : Decomposed Ns W) {y : List Int} (hy : InBox Ns y) {k : Int} :
    appToPetsc W k = appToPetsc W (flat Ns y) ↔ k = flat Ns y := by
  refine ⟨fun h => ?_, fun h => by rw [h]⟩
  have hm := mem_apps D hy
  unfold appToPetsc at h
  rw [if_pos hm] at h
  split at h
  · rename_i hk
    have : (apps W).idxOf k = (apps W).idxOf (flat Ns y) := by omega
    exact (List.idxOf_inj hk).1 this
  · omega

theorem columns_eq (colloc : Bool) (off : Axis K → List Int) (axs : List (Axis K)) : ∀ (ds ds' : List Dir) (x : List Int),
    ds.length = ds'.length →
    List.zipWith (Mat.crange colloc) (List.zipWith (fun ax d => (⟨ax, off ax, d.nodeLstart, d.nodeLwidth⟩ : Mat.MDir K)) axs ds) x =
    List.zipWith (Mat.crange colloc) (List.zipWith (fun ax d => (⟨ax, off ax, d.nodeLstart, d.nodeLwidth⟩ : Mat.MDir K)) axs ds') x := by
  induction axs with
  | nil => intros; simp
  | cons ax axs ih =>
    intro ds ds' x h
    cases ds with
    | nil =>
      cases ds' with
      | nil => rfl
      | cons _ _ => simp at h
    | cons d ds =>
      cases ds' with
      | nil => simp at h
      | cons d' ds' =>
        cases x with
        | nil => simp
        | cons i x =>
          simp only [List.zipWith_cons_cons]
          rw [ih ds ds' x (by simpa using h)]
          rfl

theorem dirs_sizes (off : Axis K → List Int) (axs : List (Axis K)) : ∀ (ds : List Dir), axs.length = ds.length →
    Mat.nodeSizes (List.zipWith (fun ax d => (⟨ax, off ax, d.nodeLstart, d.nodeLwidth⟩ : Mat.MDir K)) axs ds) = axs.map Axis.nnp := by
  induction axs with
  | nil => intros; simp [Mat.nodeSizes]
  | cons ax axs ih =>
    intro ds h
    cases ds with
    | nil => simp at h
    | cons d ds =>
      have := ih ds (by simpa using h)
      unfold Mat.nodeSizes at this ⊢
      simp only [List.zipWith_cons_cons, List.map_cons, this]

theorem dirs_block (off : Axis K → List Int) (axs : List (Axis K)) : ∀ (ds : List Dir), axs.length = ds.length →
    (List.zipWith (fun ax d => (⟨ax, off ax, d.nodeLstart, d.nodeLwidth⟩ : Mat.MDir K)) axs ds).map Mat.MDir.lstart =
      ds.map Dir.nodeLstart ∧
    (List.zipWith (fun ax d => (⟨ax, off ax, d.nodeLstart, d.nodeLwidth⟩ : Mat.MDir K)) axs ds).map Mat.MDir.lwidth =
      ds.map Dir.nodeLwidth := by
  induction axs with
  | nil => intro ds h; cases ds <;> simp at h ⊢
  | cons ax axs ih =>
    intro ds h
    cases ds with
    | nil => simp at h
    | cons d ds =>
      obtain ⟨a, b⟩ := ih ds (by simpa using h)
      simp only [List.zipWith_cons_cons, List.map_cons, a, b, and_self]

/-- What `IGACreateMat` inserts on a process. -/
theorem rows_full (S : Setup g2 g3 colloc size procs axes axs Ls) (off : Axis K → List Int)
    (hper : colloc = false → ∀ ax ∈ axs, Mat.PeriodicOK ax)
    (hoff : colloc = true → ∀ ax ∈ axs, ∃ (cb : Int → K → Unit) (b : Quad.Basis K Unit),
      Quad.initCollocation cb .bspline ax = .ok b ∧ off ax = b.elems.map Quad.Elem.offset)
    {r : Nat} {L : Layout K} (h : Ls[r]? = some L) :
    ∃ X : List (List Int), (∀ x, x ∈ X ↔ InBlock (L.dir.map Dir.nodeLstart) (L.dir.map Dir.nodeLwidth) x) ∧
      Mat.createMat colloc (ranks Ls) (Mat.dirsOf L off) = .ok (X.map fun x =>
        (appToPetsc (ranks Ls) (flat (axs.map Axis.nnp) x),
         (box (List.zipWith (Mat.crange colloc) (Mat.dirsOf L off) x)).map
          fun y => appToPetsc (ranks Ls) (flat (axs.map Axis.nnp) (wrapAll (axs.map Axis.nnp) y)))) := by
  obtain ⟨h1, h2, h3, h4⟩ := S.get h
  have hl : axs.length = L.dir.length := h3.length_eq
  have hR : ∀ d ∈ Mat.dirsOf L off, Mat.Ranges colloc d := fun d hd => Mat.ranges_of_ready
    (Mat.C38_after_setup g2 g3 colloc size r procs axes L off S.reached h1
      (by rw [h2]; exact fun hc ax hax => ((S.cond ax hax).1 hc).1) (by rw [h2]; exact hper) (by rw [h2]; exact hoff) d hd)
  have hs : Mat.nodeSizes (Mat.dirsOf L off) = axs.map Axis.nnp := by
    unfold Mat.dirsOf; rw [h2]; exact dirs_sizes off axs L.dir hl
  have hbox : ∀ x, x ∈ box ((Mat.dirsOf L off).map fun d => (d.lstart, d.lwidth)) ↔
      InBlock ((Mat.dirsOf L off).map Mat.MDir.lstart) ((Mat.dirsOf L off).map Mat.MDir.lwidth) x := by
    intro x
    rw [mem_box, List.map_map, List.map_map]
    rfl
  have hrows := Mat.rowsOf_eq (ranks Ls) colloc (Mat.dirsOf L off) hR _ fun x hx => (hbox x).1 hx
  rw [hs] at hrows
  have hc0 : Mat.createMat colloc (ranks Ls) (Mat.dirsOf L off) = Mat.rowsOf colloc (ranks Ls) (Mat.dirsOf L off)
      ((Mat.dirsOf L off).map (Mat.grange colloc)) (box ((Mat.dirsOf L off).map fun d => (d.lstart, d.lwidth))) := by
    simp only [Mat.createMat, Mat.ghostRanges_eq colloc _ hR, Res.bind]
  refine ⟨_, ?_, hc0.trans hrows⟩
  intro x
  rw [hbox]
  unfold Mat.dirsOf; rw [h2, (dirs_block off axs L.dir hl).1, (dirs_block off axs L.dir hl).2]

/-- The columns that `IGACreateMat` stores in the row of an owned node. -/
theorem row_columns (S : Setup g2 g3 colloc size procs axes axs Ls) (off : Axis K → List Int)
    (hper : colloc = false → ∀ ax ∈ axs, Mat.PeriodicOK ax)
    (hoff : colloc = true → ∀ ax ∈ axs, ∃ (cb : Int → K → Unit) (b : Quad.Basis K Unit),
      Quad.initCollocation cb .bspline ax = .ok b ∧ off ax = b.elems.map Quad.Elem.offset)
    {r : Nat} {L : Layout K} (h : Ls[r]? = some L) {x : List Int}
    (hx : InBlock (L.dir.map Dir.nodeLstart) (L.dir.map Dir.nodeLwidth) x) :
    ∃ rows cols, Mat.createMat colloc (ranks Ls) (Mat.dirsOf L off) = .ok rows ∧
      (appToPetsc (ranks Ls) (flat (axs.map Axis.nnp) x), cols) ∈ rows ∧
      ∀ y, InBox (axs.map Axis.nnp) y → (appToPetsc (ranks Ls) (flat (axs.map Axis.nnp) y) ∈ cols ↔
        ∃ z ∈ box (List.zipWith (Mat.crange colloc) (Mat.dirsOf L off) x),
          flat (axs.map Axis.nnp) (wrapAll (axs.map Axis.nnp) z) = flat (axs.map Axis.nnp) y) := by
  obtain ⟨D, hNs⟩ := S.grid
  obtain ⟨X, hX, hc⟩ := rows_full S off hper hoff h
  refine ⟨_, _, hc, List.mem_map.2 ⟨x, (hX x).2 hx, rfl⟩, ?_⟩
  intro y hy
  rw [List.mem_map]
  constructor
  · rintro ⟨z, z1, z2⟩; exact ⟨z, z1, (glob_eq D hy).1 z2⟩
  · rintro ⟨z, z1, z2⟩; exact ⟨z, z1, (glob_eq D hy).2 z2⟩

/-- **C100**, the nonzero pattern: matrices made with `IGACreateMat` for the same axes by different numbers of processes store the
same pairs of nodes, so that the hypothesis of `C100_round_trip` holds for them.  (`x` is a node, `r` and `r'` its owners.) -/
theorem C100_pattern (S : Setup g2 g3 colloc size procs axes axs Ls) (S' : Setup g2' g3' colloc size' procs' axes' axs Ls')
    (off : Axis K → List Int) (hper : colloc = false → ∀ ax ∈ axs, Mat.PeriodicOK ax)
    (hoff : colloc = true → ∀ ax ∈ axs, ∃ (cb : Int → K → Unit) (b : Quad.Basis K Unit),
      Quad.initCollocation cb .bspline ax = .ok b ∧ off ax = b.elems.map Quad.Elem.offset)
    {r r' : Nat} {L L' : Layout K} (h : Ls[r]? = some L) (h' : Ls'[r']? = some L') {x : List Int}
    (hx : InBlock (L.dir.map Dir.nodeLstart) (L.dir.map Dir.nodeLwidth) x)
    (hx' : InBlock (L'.dir.map Dir.nodeLstart) (L'.dir.map Dir.nodeLwidth) x) :
    ∃ rows rows' cols cols', Mat.createMat colloc (ranks Ls) (Mat.dirsOf L off) = .ok rows ∧
      Mat.createMat colloc (ranks Ls') (Mat.dirsOf L' off) = .ok rows' ∧
      (appToPetsc (ranks Ls) (flat (axs.map Axis.nnp) x), cols) ∈ rows ∧
      (appToPetsc (ranks Ls') (flat (axs.map Axis.nnp) x), cols') ∈ rows' ∧
      ∀ y, InBox (axs.map Axis.nnp) y → (appToPetsc (ranks Ls) (flat (axs.map Axis.nnp) y) ∈ cols ↔
        appToPetsc (ranks Ls') (flat (axs.map Axis.nnp) y) ∈ cols') := by
  obtain ⟨rows, cols, e1, e2, e3⟩ := row_columns S off hper hoff h hx
  obtain ⟨rows', cols', f1, f2, f3⟩ := row_columns S' off hper hoff h' hx'
  refine ⟨rows, rows', cols, cols', e1, f1, e2, f2, ?_⟩
  intro y hy
  have hl : L.dir.length = L'.dir.length := by
    rw [← (S.get h).2.2.1.length_eq, ← (S'.get h').2.2.1.length_eq]
  have := columns_eq colloc off axs L.dir L'.dir x hl
  rw [e3 y hy, f3 y hy]
  unfold Mat.dirsOf
  rw [(S.get h).2.1, (S'.get h').2.1, this]

/-- The stored entries of `A` are those `IGACreateMat` made room for: on every process, in the rows of the components of an inserted
block row, the columns of all components of the inserted block columns. -/
def Created (colloc : Bool) (Ls : List (Layout K)) (off : Axis K → List Int) (dof : Nat) (A : Entries V) : Prop :=
  ∀ (r : Nat) (L : Layout K) rows, Ls[r]? = some L → Mat.createMat colloc (ranks Ls) (Mat.dirsOf L off) = .ok rows →
    ∀ row cols, (row, cols) ∈ rows → ∀ (col : Int) (c d : Nat), c < dof → d < dof →
      ((A ((dof:Int) * row + c) ((dof:Int) * col + d)).isSome = true ↔ col ∈ cols)

/-- **C100**: a matrix made with `IGACreateMat` and written by any number of processes is read, by any other number of processes,
into a matrix made with `IGACreateMat` for the same axes, whatever its values: the entry of every pair of unknowns is the one it
had. -/
theorem C100_created_round_trip (S : Setup g2 g3 colloc size procs axes axs Ls)
    (S' : Setup g2' g3' colloc size' procs' axes' axs Ls') (off : Axis K → List Int)
    (hper : colloc = false → ∀ ax ∈ axs, Mat.PeriodicOK ax)
    (hoff : colloc = true → ∀ ax ∈ axs, ∃ (cb : Int → K → Unit) (b : Quad.Basis K Unit),
      Quad.initCollocation cb .bspline ax = .ok b ∧ off ax = b.elems.map Quad.Elem.offset)
    (dof : Nat) (A B : Entries V) (hA : Created colloc Ls off dof A) (hB : Created colloc Ls' off dof B) :
    ∃ f B', matView (createOps false (ranks Ls)) (ranks Ls) dof A = .ok f ∧
      matLoad (createOps false (ranks Ls')) (ranks Ls') dof B f = .ok B' ∧
      ∀ z (c : Nat) w (d : Nat), InBox (axs.map Axis.nnp) z → InBox (axs.map Axis.nnp) w → c < dof → d < dof →
        B' ((dof:Int) * appToPetsc (ranks Ls') (flat (axs.map Axis.nnp) z) + c)
           ((dof:Int) * appToPetsc (ranks Ls') (flat (axs.map Axis.nnp) w) + d) =
        A ((dof:Int) * appToPetsc (ranks Ls) (flat (axs.map Axis.nnp) z) + c)
          ((dof:Int) * appToPetsc (ranks Ls) (flat (axs.map Axis.nnp) w) + d) := by
  have owner : ∀ {size : Int} {procs : List Int} {g2 : Guess2} {g3 : Guess3} {axes : List (Axis K)} {Ls : List (Layout K)},
      Setup g2 g3 colloc size procs axes axs Ls → ∀ z, InBox (axs.map Axis.nnp) z →
      ∃ (r : Nat) (L : Layout K), Ls[r]? = some L ∧ InBlock (L.dir.map Dir.nodeLstart) (L.dir.map Dir.nodeLwidth) z := by
    intro size procs g2 g3 axes Ls S z hz
    obtain ⟨D, -⟩ := S.grid
    obtain ⟨r, ⟨r1, r2⟩, -⟩ := D.part.owner z hz
    have hr : r < Ls.length := by simpa [world, appWorld] using r1
    refine ⟨r, Ls[r], by simp, ?_⟩
    have hg := (S.get (r := r) (L := Ls[r]) (by simp)).2.2.2
    rw [(own_get hg).1, (own_get hg).2.1, List.map_map, List.map_map] at r2
    exact r2
  obtain ⟨f, B', e1, e2, e3⟩ := C100_round_trip S S' dof A
    (fun z c w d => A ((dof:Int) * appToPetsc (ranks Ls) (flat (axs.map Axis.nnp) z) + c)
          ((dof:Int) * appToPetsc (ranks Ls) (flat (axs.map Axis.nnp) w) + d)) (fun _ _ _ _ _ _ _ _ => rfl) B
    (fun z c w d => B ((dof:Int) * appToPetsc (ranks Ls') (flat (axs.map Axis.nnp) z) + c)
          ((dof:Int) * appToPetsc (ranks Ls') (flat (axs.map Axis.nnp) w) + d)) (fun _ _ _ _ _ _ _ _ => rfl) (by
      intro z c w d hz hw hc hd
      obtain ⟨r, L, h, hx⟩ := owner S z hz
      obtain ⟨r', L', h', hx'⟩ := owner S' z hz
      obtain ⟨rows, rows', cols, cols', a1, a2, a3, a4, a5⟩ := C100_pattern S S' off hper hoff h h' hx hx'
      have k1 := hA r L rows h a1 _ _ a3 (appToPetsc (ranks Ls) (flat (axs.map Axis.nnp) w)) c d hc hd
      have k2 := hB r' L' rows' h' a2 _ _ a4 (appToPetsc (ranks Ls') (flat (axs.map Axis.nnp) w)) c d hc hd
      rw [Bool.eq_iff_iff]
      exact k1.trans ((a5 w hw).trans k2.symm))
  exact ⟨f, B', e1, e2, e3⟩

theorem split_unique {dof : Nat} {a b : Int} {c d : Nat} (hc : c < dof) (hd : d < dof)
    (h : (dof:Int) * a + c = (dof:Int) * b + d) : a = b ∧ c = d := by
  have hdiv : ∀ (q : Int) (e : Nat), e < dof → ((dof:Int) * q + e) / (dof:Int) = q := by
    intro q e he
    rw [Int.add_comm, Int.add_mul_ediv_left _ _ (by omega), Int.ediv_eq_zero_of_lt (by omega) (by omega)]
    omega
  have e := congrArg (· / (dof:Int)) h
  rw [hdiv a c hc, hdiv b d hd] at e
  subst e
  exact ⟨rfl, by omega⟩

/-- A matrix just made with `IGACreateMat`, with any values. -/
theorem created_exists (S : Setup g2 g3 colloc size procs axes axs Ls) (off : Axis K → List Int)
    (hper : colloc = false → ∀ ax ∈ axs, Mat.PeriodicOK ax)
    (hoff : colloc = true → ∀ ax ∈ axs, ∃ (cb : Int → K → Unit) (b : Quad.Basis K Unit),
      Quad.initCollocation cb .bspline ax = .ok b ∧ off ax = b.elems.map Quad.Elem.offset)
    (dof : Nat) (v : Int → Int → V) :
    ∃ A : Entries V, Created colloc Ls off dof A ∧ ∀ i j e, A i j = some e → e = v i j := by
  classical
  obtain ⟨D, hNs⟩ := S.grid
  refine ⟨fun i j => if ∃ (r : Nat) (L : Layout K) (rows : List (Int × List Int)) (row : Int) (cols : List Int) (col : Int) (c d : Nat),
    Ls[r]? = some L ∧ Mat.createMat colloc (ranks Ls) (Mat.dirsOf L off) = .ok rows ∧ (row, cols) ∈ rows ∧ c < dof ∧ d < dof ∧
      i = (dof:Int) * row + c ∧ j = (dof:Int) * col + d ∧ col ∈ cols then some (v i j) else none, ?_, ?_⟩
  · intro r L rows hL hr row cols hm col c d hc hd
    beta_reduce
    constructor
    · intro h
      split at h
      · rename_i hp
        obtain ⟨r', L', rows', row', cols', col', c', d', p1, p2, p3, p4, p5, p6, p7, p8⟩ := hp
        obtain ⟨e1, -⟩ := split_unique hc p4 p6
        obtain ⟨e2, -⟩ := split_unique hd p5 p7
        subst e1 e2
        obtain ⟨X, hX, hcr⟩ := rows_full S off hper hoff hL
        obtain ⟨X', hX', hcr'⟩ := rows_full S off hper hoff p1
        rw [hr] at hcr; rw [p2] at hcr'
        cases hcr; cases hcr'
        obtain ⟨x, x1, x2⟩ := List.mem_map.1 hm
        obtain ⟨y, y1, y2⟩ := List.mem_map.1 p3
        simp only [Prod.mk.injEq] at x2 y2
        have hx := (hX x).1 x1
        have hy := (hX' y).1 y1
        have gx := (S.get hL).2.2.2
        have gy := (S.get p1).2.2.2
        have bx : InBlock ((L.dir.map gdir).map GDir.lstart) ((L.dir.map gdir).map GDir.lwidth) x := by
          rw [List.map_map, List.map_map]; exact hx
        have by' : InBlock ((L'.dir.map gdir).map GDir.lstart) ((L'.dir.map gdir).map GDir.lwidth) y := by
          rw [List.map_map, List.map_map]; exact hy
        have ix := inBlock_inBox (own_blocks D gx) bx
        have iy := inBlock_inBox (own_blocks D gy) by'
        have exy := (C26_global_numbering _ _ D hNs).2.1 x y ix iy (x2.1.trans y2.1.symm)
        subst exy
        have := owner_unique D gx gy bx by'
        subst this
        rw [hL] at p1
        cases p1
        rw [← x2.2]
        rw [← y2.2] at p8
        exact p8
      · exact absurd h (by simp)
    · intro h
      rw [if_pos ⟨r, L, rows, row, cols, col, c, d, hL, hr, hm, hc, hd, rfl, rfl, h⟩]
      rfl
  · intro i j e h
    beta_reduce at h
    split at h
    · cases h; rfl
    · cases h

end

/-! ### Concrete cases -/

theorem exPeriodic : ∀ ax ∈ exAxs, Mat.PeriodicOK ax := by
  intro ax h
  simp only [exAxs, List.mem_cons, List.not_mem_nil, or_false] at h
  rcases h with rfl | rfl
  · intro _
    right
    have e1 : (Ax.setUp exAx0).2.nnp = 6 := by decide +kernel
    have e2 : (Ax.setUp exAx0).2.m = 10 := by decide +kernel
    rw [e1, e2]
    intro j h0 h1
    have : j = 0 ∨ j = 1 ∨ j = 2 ∨ j = 3 ∨ j = 4 := by omega
    rcases this with rfl | rfl | rfl | rfl | rfl <;> decide +kernel
  · intro hp; exact absurd hp (by decide +kernel)

/-- A matrix with three components on a grid with a periodic direction, written by four processes and read by one, and the other
way round. -/
example (g2 : Guess2) (g3 : Guess3) (v w : Int → Int → Rat) : ∃ (Ls Ls' : List (Layout Rat)) (A B : Entries Rat),
    Setup g2 g3 false 4 [2,2] [exAx0, exAx1] exAxs Ls ∧ Setup g2 g3 false 1 [1,1] [exAx0, exAx1] exAxs Ls' ∧
    Created false Ls (fun _ => []) 3 A ∧ Created false Ls' (fun _ => []) 3 B ∧
    (∃ f B', matView (createOps false (ranks Ls)) (ranks Ls) 3 A = .ok f ∧
      matLoad (createOps false (ranks Ls')) (ranks Ls') 3 B f = .ok B') ∧
    (∃ f A', matView (createOps false (ranks Ls')) (ranks Ls') 3 B = .ok f ∧
      matLoad (createOps false (ranks Ls)) (ranks Ls) 3 A f = .ok A') := by
  obtain ⟨Ls, S⟩ := exSetup g2 g3
  obtain ⟨Ls', S'⟩ := exSetup1 g2 g3
  obtain ⟨A, hA, -⟩ := created_exists S (fun _ => []) (fun _ => exPeriodic) (fun h => by cases h) 3 v
  obtain ⟨B, hB, -⟩ := created_exists S' (fun _ => []) (fun _ => exPeriodic) (fun h => by cases h) 3 w
  obtain ⟨f, B', e1, e2, -⟩ := C100_created_round_trip S S' (fun _ => []) (fun _ => exPeriodic) (fun h => by cases h) 3 A B hA hB
  obtain ⟨f', A', e3, e4, -⟩ := C100_created_round_trip S' S (fun _ => []) (fun _ => exPeriodic) (fun h => by cases h) 3 B A hB hA
  exact ⟨Ls, Ls', A, B, S, S', hA, hB, ⟨f, B', e1, e2⟩, ⟨f', A', e3, e4⟩⟩

/-- Two processes owning the left and right halves of a 2 × 2 grid: global numbers 0, 1, 2, 3 are natural numbers 0, 2, 1, 3. -/
def exW : World := [[⟨2, 0, 1, 0, 2⟩, ⟨2, 0, 2, 0, 2⟩], [⟨2, 1, 1, 0, 2⟩, ⟨2, 0, 2, 0, 2⟩]]

example : parallelIS (appToPetsc exW) exW 1 = [0, 2, 1, 3] ∧
    parallelIS (petscToApp exW) exW 2 = [0, 1, 4, 5, 2, 3, 6, 7] ∧
    (matViewMPI exW 1 fun i j => some (10 * i + j)).entries 1 2 = some 21 ∧
    (matView (createOps false exW) exW 1 fun i j => some (10 * i + j)).isOk = true ∧
    duplicate (createOps false exW) = .ok (createOps false exW) := by decide +kernel

/-- A matrix with another pattern: the values are copied to wrong places. -/
example : matLoad (createOps false exW) exW 1 (fun i j => if i = j then some 0 else none) ⟨4, fun _ _ => some (1:Int)⟩ = .ub := by
  rfl

end PetIGA.MIO
