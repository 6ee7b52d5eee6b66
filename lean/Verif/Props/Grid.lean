import Verif.Lemmas.Grid
import Verif.Props.Layout
import Mathlib.Algebra.Module.Basic
/-! Property theorems about the global numbering and the vector transfers (C26, C27, C28). -/
set_option linter.unusedSectionVars false
namespace PetIGA.Grid
open PetIGA.Spec PetIGA.Part PetIGA.Lay PetIGA.Ax

/-! ### C26 -/

/-- First corner of the nodes owned by rank `r`. -/
def ownStart (W : World) (r : Nat) : List Int := ((W[r]?).getD []).map GDir.lstart
/-- Extents of the nodes owned by rank `r`. -/
def ownWidth (W : World) (r : Nat) : List Int := ((W[r]?).getD []).map GDir.lwidth
/-- First corner of the ghosted nodes of rank `r`. -/
def ghoStart (W : World) (r : Nat) : List Int := ((W[r]?).getD []).map GDir.gstart
/-- Extents of the ghosted nodes of rank `r`. -/
def ghoWidth (W : World) (r : Nat) : List Int := ((W[r]?).getD []).map GDir.gwidth

/-- All processes agree on the node grid `Ns` and their owned boxes partition it (what C20 provides). -/
structure Decomposed (Ns : List Int) (W : World) : Prop where
  sizes : ∀ g ∈ W, sizes g = Ns
  part : Partitions Ns W.length (ownStart W) (ownWidth W)

theorem localIndices_one (g : List GDir) : localIndices 1 g = (box (lbox g)).map (flat (sizes g)) := by
  unfold localIndices
  simp only [List.range_one, List.map_cons, List.map_nil, natural_one]
  rw [← List.map_eq_flatMap]
  apply List.map_congr_left
  intro x _
  push_cast; ring

theorem ghostIndices_one (g : List GDir) :
    ghostIndices 1 g = (box (gbox g)).map fun x => flat (sizes g) (wrapAll (sizes g) x) := by
  unfold ghostIndices
  simp only [List.range_one, List.map_cons, List.map_nil, natural_one]
  rw [← List.map_eq_flatMap]
  apply List.map_congr_left
  intro x _
  push_cast; ring

theorem lbox_fst (g : List GDir) : (lbox g).map Prod.fst = g.map GDir.lstart := by
  unfold lbox; rw [List.map_map]; rfl
theorem lbox_snd (g : List GDir) : (lbox g).map Prod.snd = g.map GDir.lwidth := by
  unfold lbox; rw [List.map_map]; rfl
theorem gbox_fst (g : List GDir) : (gbox g).map Prod.fst = g.map GDir.gstart := by
  unfold gbox; rw [List.map_map]; rfl
theorem gbox_snd (g : List GDir) : (gbox g).map Prod.snd = g.map GDir.gwidth := by
  unfold gbox; rw [List.map_map]; rfl

theorem nlocal_eq (g : List GDir) : nlocal g = prod (g.map GDir.lwidth) := by
  unfold nlocal; rw [foldl_mul, one_mul, lbox_snd]

theorem prod_pos : ∀ {ws : List Int}, (∀ w ∈ ws, 1 ≤ w) → 1 ≤ prod ws
  | [], _ => by simp [prod]
  | w :: ws, h => by
    have h1 := h w (by simp)
    have h2 := prod_pos (fun a ha => h a (by simp [ha]) : ∀ a ∈ ws, 1 ≤ a)
    simp only [prod]
    nlinarith

section
variable {Ns : List Int} {W : World}

theorem own_get {r : Nat} {g : List GDir} (h : W[r]? = some g) :
    ownStart W r = g.map GDir.lstart ∧ ownWidth W r = g.map GDir.lwidth ∧
    ghoStart W r = g.map GDir.gstart ∧ ghoWidth W r = g.map GDir.gwidth := by
  unfold ownStart ownWidth ghoStart ghoWidth; rw [h]; simp

theorem rank_lt {r : Nat} {g : List GDir} (h : W[r]? = some g) : r < W.length := (List.getElem?_eq_some_iff.1 h).1

theorem get_of_lt {r : Nat} (h : r < W.length) : ∃ g, W[r]? = some g := ⟨W[r], by simp [h]⟩

theorem own_blocks (D : Decomposed Ns W) {r : Nat} {g : List GDir} (h : W[r]? = some g) :
    Blocks Ns (g.map GDir.lstart) (g.map GDir.lwidth) := by
  have := D.part.inside r (rank_lt h)
  rwa [(own_get h).1, (own_get h).2.1] at this

theorem owner_unique (D : Decomposed Ns W) {r r' : Nat} {g g' : List GDir} {x : List Int} (h : W[r]? = some g)
    (h' : W[r']? = some g') (hx : InBlock (g.map GDir.lstart) (g.map GDir.lwidth) x)
    (hx' : InBlock (g'.map GDir.lstart) (g'.map GDir.lwidth) x) : r = r' := by
  obtain ⟨q, -, hu⟩ := D.part.owner x (inBlock_inBox (own_blocks D h) hx)
  rw [hu r (rank_lt h) (by rw [(own_get h).1, (own_get h).2.1]; exact hx),
    hu r' (rank_lt h') (by rw [(own_get h').1, (own_get h').2.1]; exact hx')]

theorem mem_local (D : Decomposed Ns W) {r : Nat} {g : List GDir} (h : W[r]? = some g) {a : Int} :
    a ∈ localIndices 1 g ↔ ∃ x, InBlock (g.map GDir.lstart) (g.map GDir.lwidth) x ∧ flat Ns x = a := by
  rw [localIndices_one, List.mem_map, D.sizes g (List.mem_of_getElem? h)]
  simp only [mem_box, lbox_fst, lbox_snd]

theorem nodup_apps (D : Decomposed Ns W) : (apps W).Nodup := by
  unfold apps
  rw [List.nodup_flatMap]
  constructor
  · intro g hg
    obtain ⟨r, hr⟩ := List.getElem?_of_mem hg
    rw [localIndices_one, List.nodup_map_iff_inj_on (nodup_box _)]
    intro x hx y hy he
    rw [mem_box, lbox_fst, lbox_snd] at hx hy
    rw [D.sizes g hg] at he
    exact flat_inj (inBlock_inBox (own_blocks D hr) hx) (inBlock_inBox (own_blocks D hr) hy) he
  · rw [List.pairwise_iff_getElem]
    intro i j hi hj hij
    have gi : W[i]? = some W[i] := by simp
    have gj : W[j]? = some W[j] := by simp
    simp only [Function.onFun, List.disjoint_left]
    intro a h1 h2
    rw [mem_local D gi] at h1
    rw [mem_local D gj] at h2
    obtain ⟨x, hx, rfl⟩ := h1
    obtain ⟨y, hy, he⟩ := h2
    have := flat_inj (inBlock_inBox (own_blocks D gj) hy) (inBlock_inBox (own_blocks D gi) hx) he
    subst this
    have := owner_unique D gi gj hx hy
    omega

theorem mem_apps (D : Decomposed Ns W) {x : List Int} (hx : InBox Ns x) : flat Ns x ∈ apps W := by
  obtain ⟨r, ⟨h1, h2⟩, -⟩ := D.part.owner x hx
  obtain ⟨g, hg⟩ := get_of_lt h1
  rw [(own_get hg).1, (own_get hg).2.1] at h2
  unfold apps
  rw [List.mem_flatMap]
  exact ⟨g, List.mem_of_getElem? hg, (mem_local D hg).2 ⟨x, h2, rfl⟩⟩

theorem length_local (D : Decomposed Ns W) {r : Nat} {g : List GDir} (h : W[r]? = some g) :
    ((localIndices 1 g).length : Int) = nlocal g := by
  rw [localIndices_one, List.length_map, length_box, lbox_snd, nlocal_eq]
  intro p hp
  have := (blocks_pos (own_blocks D h)).1
  unfold lbox at hp
  rw [List.mem_map] at hp
  obtain ⟨d, hd, rfl⟩ := hp
  have := this d.lwidth (List.mem_map.2 ⟨d, hd, rfl⟩)
  dsimp only; omega

theorem foldl_add (l : List Int) (a : Int) : l.foldl (· + ·) a = a + l.sum := by
  induction l generalizing a with
  | nil => simp
  | cons x l ih => rw [List.foldl_cons, ih, List.sum_cons]; ring

theorem offset_eq (D : Decomposed Ns W) (r : Nat) :
    offset W r = (((W.take r).flatMap (localIndices 1)).length : Int) := by
  unfold offset
  rw [foldl_add, zero_add]
  have key : ∀ l : List (List GDir), (∀ g ∈ l, g ∈ W) → (l.map nlocal).sum = ((l.flatMap (localIndices 1)).length : Int) := by
    intro l
    induction l with
    | nil => intro _; simp
    | cons g l ih =>
      intro hg
      obtain ⟨i, hi⟩ := List.getElem?_of_mem (hg g (by simp))
      rw [List.map_cons, List.sum_cons, List.flatMap_cons, List.length_append, ih (fun a ha => hg a (by simp [ha])),
        ← length_local D hi]
      push_cast; rfl
  exact key _ (fun g hg => List.mem_of_mem_take hg)

theorem offset_succ {r : Nat} {g : List GDir} (h : W[r]? = some g) : offset W (r+1) = offset W r + nlocal g := by
  unfold offset
  rw [List.take_add_one, h]
  simp

theorem offset_mono (D : Decomposed Ns W) {r r' : Nat} (h : r ≤ r') : offset W r ≤ offset W r' := by
  rw [offset_eq D, offset_eq D]
  have : (W.take r') = W.take r ++ (W.take r').drop r := by
    have := List.take_append_drop r (W.take r')
    rw [List.take_take, Nat.min_eq_left h] at this
    exact this.symm
  rw [this, List.flatMap_append, List.length_append]
  omega

/-- Global number of an owned node. -/
theorem glob_own (D : Decomposed Ns W) {r : Nat} {g : List GDir} (h : W[r]? = some g) {x : List Int}
    (hx : InBlock (g.map GDir.lstart) (g.map GDir.lwidth) x) :
    appToPetsc W (flat Ns x) = offset W r + flat (g.map GDir.lwidth) (rel (g.map GDir.lstart) x) ∧
    0 ≤ flat (g.map GDir.lwidth) (rel (g.map GDir.lstart) x) ∧
    flat (g.map GDir.lwidth) (rel (g.map GDir.lstart) x) < nlocal g := by
  have hm := mem_apps D (inBlock_inBox (own_blocks D h) hx)
  obtain ⟨f0, f1⟩ := flat_range (rel_inBox hx)
  have hb := box_get (lbox g) x (by rw [lbox_fst, lbox_snd]; exact hx)
  rw [lbox_fst, lbox_snd] at hb
  have e1 : (localIndices 1 g)[(flat (g.map GDir.lwidth) (rel (g.map GDir.lstart) x)).toNat]? = some (flat Ns x) := by
    rw [localIndices_one, List.getElem?_map, hb.2, D.sizes g (List.mem_of_getElem? h)]; rfl
  have hl := length_local D h
  rw [nlocal_eq] at hl
  have e2 := flatMap_get (localIndices 1) W r g (flat (g.map GDir.lwidth) (rel (g.map GDir.lstart) x)).toNat h (by omega)
  rw [e1] at e2
  have e3 := idxOf_of_get (nodup_apps D) (l := apps W) e2
  rw [nlocal_eq]
  refine ⟨?_, f0, f1⟩
  unfold appToPetsc
  rw [if_pos hm, e3, offset_eq D]
  push_cast
  omega

theorem offset_length (D : Decomposed Ns W) (hNs : ∀ n ∈ Ns, 1 ≤ n) : offset W W.length = prod Ns := by
  have hl : ((apps W).length : Int) = prod Ns := by
    have hp : (apps W).Perm ((List.range (prod Ns).toNat).map fun (k : Nat) => (k:Int)) := by
      rw [List.perm_ext_iff_of_nodup (nodup_apps D)]
      · intro a
        simp only [List.mem_map, List.mem_range]
        constructor
        · intro ha
          unfold apps at ha
          rw [List.mem_flatMap] at ha
          obtain ⟨g, hg, ha⟩ := ha
          obtain ⟨r, hr⟩ := List.getElem?_of_mem hg
          rw [mem_local D hr] at ha
          obtain ⟨x, hx, rfl⟩ := ha
          have := flat_range (inBlock_inBox (own_blocks D hr) hx)
          exact ⟨(flat Ns x).toNat, by omega, by omega⟩
        · rintro ⟨k, hk, rfl⟩
          obtain ⟨x, hx, he⟩ := flat_surj hNs (k := (k:Int)) (by omega) (by omega)
          rw [← he]
          exact mem_apps D hx
      · rw [List.nodup_map_iff_inj_on List.nodup_range]
        intro a _ b _ h; omega
    have := hp.length_eq
    rw [List.length_map, List.length_range] at this
    have h1 := prod_pos hNs
    omega
  rw [offset_eq D, List.take_length, ← hl]
  rfl

/-- **C26**, numbering.  Let the owned boxes of all processes partition the node grid (C20).  The global number of
the node with multi-index `x` – what the application ordering of the setup returns for its natural number – is a
bijection between the grid and `0,…,N-1`; each process owns a contiguous range `[offset r, offset (r+1))` of it,
in which its nodes are numbered lexicographically. -/
theorem C26_global_numbering (Ns : List Int) (W : World) (D : Decomposed Ns W) (hNs : ∀ n ∈ Ns, 1 ≤ n) :
    (∀ x, InBox Ns x → 0 ≤ appToPetsc W (flat Ns x) ∧ appToPetsc W (flat Ns x) < prod Ns) ∧
    (∀ x y, InBox Ns x → InBox Ns y → appToPetsc W (flat Ns x) = appToPetsc W (flat Ns y) → x = y) ∧
    (∀ k, 0 ≤ k → k < prod Ns → ∃ x, InBox Ns x ∧ appToPetsc W (flat Ns x) = k) ∧
    (∀ r x, r < W.length → InBox Ns x →
      (InBlock (ownStart W r) (ownWidth W r) x ↔
        offset W r ≤ appToPetsc W (flat Ns x) ∧ appToPetsc W (flat Ns x) < offset W (r+1))) ∧
    (∀ r x, r < W.length → InBlock (ownStart W r) (ownWidth W r) x →
      appToPetsc W (flat Ns x) = offset W r + flat (ownWidth W r) (rel (ownStart W r) x)) ∧
    offset W 0 = 0 ∧ offset W W.length = prod Ns := by
  have own : ∀ x, InBox Ns x → ∃ (r : Nat) (g : List GDir), W[r]? = some g ∧ InBlock (g.map GDir.lstart) (g.map GDir.lwidth) x := by
    intro x hx
    obtain ⟨r, ⟨h1, h2⟩, -⟩ := D.part.owner x hx
    obtain ⟨g, hg⟩ := get_of_lt h1
    rw [(own_get hg).1, (own_get hg).2.1] at h2
    exact ⟨r, g, hg, h2⟩
  have range : ∀ x, InBox Ns x → 0 ≤ appToPetsc W (flat Ns x) ∧ appToPetsc W (flat Ns x) < prod Ns := by
    intro x hx
    obtain ⟨r, g, hg, hb⟩ := own x hx
    obtain ⟨e, f0, f1⟩ := glob_own D hg hb
    have a := offset_mono D (r := 0) (r' := r) (by omega)
    have b := offset_mono D (r := r+1) (r' := W.length) (rank_lt hg)
    rw [offset_succ hg, offset_length D hNs] at b
    have c : offset W 0 = 0 := by simp [offset]
    omega
  have inj : ∀ x y, InBox Ns x → InBox Ns y → appToPetsc W (flat Ns x) = appToPetsc W (flat Ns y) → x = y := by
    intro x y hx hy h
    have mx := mem_apps D hx
    have my := mem_apps D hy
    unfold appToPetsc at h
    rw [if_pos mx, if_pos my] at h
    have : (apps W).idxOf (flat Ns x) = (apps W).idxOf (flat Ns y) := by omega
    rw [List.idxOf_inj mx] at this
    exact flat_inj hx hy this
  refine ⟨range, inj, ?_, ?_, ?_, by simp [offset], offset_length D hNs⟩
  · intro k h0 h1
    have hlen : ((apps W).length : Int) = prod Ns := by
      rw [← offset_length D hNs, offset_eq D, List.take_length]; rfl
    have hk : k.toNat < (apps W).length := by omega
    have hm : (apps W)[k.toNat] ∈ apps W := List.getElem_mem hk
    have hx : ∃ x, InBox Ns x ∧ flat Ns x = (apps W)[k.toNat] := by
      have hm' := hm
      unfold apps at hm'
      rw [List.mem_flatMap] at hm'
      obtain ⟨g, hg, ha⟩ := hm'
      obtain ⟨r, hr⟩ := List.getElem?_of_mem hg
      rw [mem_local D hr] at ha
      obtain ⟨x, hx, he⟩ := ha
      exact ⟨x, inBlock_inBox (own_blocks D hr) hx, he⟩
    obtain ⟨x, hx, he⟩ := hx
    refine ⟨x, hx, ?_⟩
    unfold appToPetsc
    rw [if_pos (by rw [he]; exact hm), he, (nodup_apps D).idxOf_getElem k.toNat hk]
    omega
  · intro r x hr hx
    obtain ⟨g, hg⟩ := get_of_lt hr
    rw [(own_get hg).1, (own_get hg).2.1, offset_succ hg]
    constructor
    · intro hb
      obtain ⟨e, f0, f1⟩ := glob_own D hg hb
      omega
    · rintro ⟨h0, h1⟩
      obtain ⟨r', g', hg', hb⟩ := own x hx
      obtain ⟨e, f0, f1⟩ := glob_own D hg' hb
      have : r' = r := by
        rcases Nat.lt_trichotomy r' r with h | h | h
        · have := offset_mono D (r := r'+1) (r' := r) h
          rw [offset_succ hg'] at this
          omega
        · exact h
        · have := offset_mono D (r := r+1) (r' := r') h
          rw [offset_succ hg] at this
          omega
      subst this
      rw [hg] at hg'
      cases hg'
      exact hb
  · intro r x hr hb
    obtain ⟨g, hg⟩ := get_of_lt hr
    rw [(own_get hg).1, (own_get hg).2.1] at hb ⊢
    exact (glob_own D hg hb).1

/-- Every ghosted node of rank `r` wraps to a node of the grid (what C21 provides). -/
def GhostWraps (Ns : List Int) (W : World) : Prop :=
  ∀ r y, r < W.length → InBlock (ghoStart W r) (ghoWidth W r) y → InBox Ns (wrapAll Ns y)

/-- **C26**, local-to-global map.  Entry number `i + w0*(j + w1*k)` of the map of a process – that is the entry of
the ghosted node `y` at position `(i,j,k)` of its ghosted box – is the global number of the node `y` wraps to. -/
theorem C26_local_to_global (Ns : List Int) (W : World) (D : Decomposed Ns W) (r : Nat) (g : List GDir)
    (hg : W[r]? = some g) (y : List Int) (hy : InBlock (ghoStart W r) (ghoWidth W r) y) :
    0 ≤ flat (ghoWidth W r) (rel (ghoStart W r) y) ∧
    (lgmap W g)[(flat (ghoWidth W r) (rel (ghoStart W r) y)).toNat]? = some (appToPetsc W (flat Ns (wrapAll Ns y))) := by
  rw [(own_get hg).2.2.1, (own_get hg).2.2.2] at *
  have hb := box_get (gbox g) y (by rw [gbox_fst, gbox_snd]; exact hy)
  rw [gbox_fst, gbox_snd] at hb
  refine ⟨hb.1, ?_⟩
  unfold lgmap
  rw [ghostIndices_one, List.map_map, List.getElem?_map, hb.2, D.sizes g (List.mem_of_getElem? hg)]
  rfl

/-- The map has one entry per ghosted node, all of them global node numbers. -/
theorem C26_local_to_global_range (Ns : List Int) (W : World) (D : Decomposed Ns W) (hNs : ∀ n ∈ Ns, 1 ≤ n)
    (hw : GhostWraps Ns W) (r : Nat) (g : List GDir) (hg : W[r]? = some g) (hp : ∀ w ∈ ghoWidth W r, 0 ≤ w) :
    ((lgmap W g).length : Int) = prod (ghoWidth W r) ∧ ∀ i ∈ lgmap W g, 0 ≤ i ∧ i < prod Ns := by
  constructor
  · unfold lgmap
    rw [List.length_map, ghostIndices_one, List.length_map, length_box, gbox_snd, (own_get hg).2.2.2]
    intro p hp'
    unfold gbox at hp'
    rw [List.mem_map] at hp'
    obtain ⟨d, hd, rfl⟩ := hp'
    apply hp
    rw [(own_get hg).2.2.2]
    exact List.mem_map.2 ⟨d, hd, rfl⟩
  · intro i hi
    unfold lgmap at hi
    rw [ghostIndices_one, List.map_map, List.mem_map] at hi
    obtain ⟨y, hy, rfl⟩ := hi
    rw [mem_box, gbox_fst, gbox_snd] at hy
    rw [Function.comp_apply, D.sizes g (List.mem_of_getElem? hg)]
    apply (C26_global_numbering Ns W D hNs).1
    apply hw r y (rank_lt hg)
    rw [(own_get hg).2.2.1, (own_get hg).2.2.2]
    exact hy

/-! ### C27 -/

/-- Owned nodes are ghosted (what C21 provides). -/
def OwnedGhosted (W : World) : Prop := ∀ g ∈ W, Sub (lbox g) (gbox g)

theorem pos_gbox {r : Nat} {g : List GDir} (h : W[r]? = some g) (y : List Int) :
    pos (gbox g) y = flat (ghoWidth W r) (rel (ghoStart W r) y) := by
  unfold pos; rw [gbox_fst, gbox_snd, (own_get h).2.2.1, (own_get h).2.2.2]

theorem pos_lbox {r : Nat} {g : List GDir} (h : W[r]? = some g) (y : List Int) :
    pos (lbox g) y = flat (ownWidth W r) (rel (ownStart W r) y) := by
  unfold pos; rw [lbox_fst, lbox_snd, (own_get h).1, (own_get h).2.1]

theorem mem_gbox {r : Nat} {g : List GDir} (h : W[r]? = some g) (y : List Int) :
    y ∈ box (gbox g) ↔ InBlock (ghoStart W r) (ghoWidth W r) y := by
  rw [mem_box, gbox_fst, gbox_snd, (own_get h).2.2.1, (own_get h).2.2.2]

theorem mem_lbox {r : Nat} {g : List GDir} (h : W[r]? = some g) (y : List Int) :
    y ∈ box (lbox g) ↔ InBlock (ownStart W r) (ownWidth W r) y := by
  rw [mem_box, lbox_fst, lbox_snd, (own_get h).1, (own_get h).2.1]

theorem sub_mem {lb gb : List (Int × Int)} (h : Sub lb gb) {x : List Int} (hx : x ∈ box lb) : x ∈ box gb := by
  rw [← filter_box h] at hx; exact (List.mem_filter.1 hx).1

/-- The pairs of the global-to-local scatter, node by node. -/
theorem g2l_eq (D : Decomposed Ns W) (bs : Nat) : g2l W bs = W.zipIdx.flatMap fun gr =>
    (box (gbox gr.1)).flatMap fun y => (List.range bs).map fun (c : Nat) =>
      ((bs:Int) * appToPetsc W (flat Ns (wrapAll Ns y)) + c, (gr.2, (bs:Int) * pos (gbox gr.1) y + c)) := by
  unfold g2l
  rw [List.flatMap_def, List.flatMap_def]
  congr 1
  apply List.map_congr_left
  rintro ⟨g, r⟩ hgr
  rw [List.mem_zipIdx_iff_getElem?] at hgr
  dsimp only at hgr ⊢
  have e : lgmap W g = (box (gbox g)).map fun y => appToPetsc W (flat Ns (wrapAll Ns y)) := by
    unfold lgmap
    rw [ghostIndices_one, List.map_map, D.sizes g (List.mem_of_getElem? hgr)]
    rfl
  have h := blockIS_zipIdx bs (gbox g) fun y => appToPetsc W (flat Ns (wrapAll Ns y))
  have h2 := congrArg (List.map fun (p : Int × Int) => (p.1, (r, p.2))) h
  rw [List.map_map, List.map_flatMap] at h2
  rw [e]
  simp only [List.map_map] at h2
  exact h2

theorem mem_g2l (D : Decomposed Ns W) (bs : Nat) (i : Int) (r : Nat) (k : Int) : (i, (r, k)) ∈ g2l W bs ↔
    ∃ g y, ∃ c : Nat, W[r]? = some g ∧ y ∈ box (gbox g) ∧ c < bs ∧ i = (bs:Int) * appToPetsc W (flat Ns (wrapAll Ns y)) + c ∧
      k = (bs:Int) * pos (gbox g) y + c := by
  rw [g2l_eq D]
  simp only [List.mem_flatMap, List.mem_map, List.mem_range, Prod.exists, List.mem_zipIdx_iff_getElem?, Prod.mk.injEq]
  constructor
  · rintro ⟨g, r', hg, y, hy, c, hc, rfl, rfl, rfl⟩
    exact ⟨g, y, c, hg, hy, hc, rfl, rfl⟩
  · rintro ⟨g, y, c, hg, hy, hc, rfl, rfl⟩
    exact ⟨g, r, hg, y, hy, c, hc, rfl, rfl, rfl⟩

theorem pos_inj {l : List (Int × Int)} {x y : List Int} (hx : x ∈ box l) (hy : y ∈ box l) (h : pos l x = pos l y) : x = y := by
  have a := (pos_get hx).2
  have b := (pos_get hy).2
  rw [h, b] at a
  simpa using a.symm

/-- **C27**, global to local: every entry of the ghosted local vector of every process gets the value of the node
its ghosted node wraps to, component by component; other memory is left alone. -/
theorem C27_global_to_local {V : Type} (Ns : List Int) (W : World) (D : Decomposed Ns W) (bs : Nat)
    (gvec : Int → V) (lvec : Nat × Int → V) :
    (∀ r y c, r < W.length → InBlock (ghoStart W r) (ghoWidth W r) y → c < bs →
      globalToLocal W bs gvec lvec (r, (bs:Int) * flat (ghoWidth W r) (rel (ghoStart W r) y) + (c:Nat)) =
        gvec ((bs:Int) * appToPetsc W (flat Ns (wrapAll Ns y)) + c)) ∧
    (∀ r k, (¬ ∃ y, ∃ c : Nat, InBlock (ghoStart W r) (ghoWidth W r) y ∧ c < bs ∧
        k = (bs:Int) * flat (ghoWidth W r) (rel (ghoStart W r) y) + c) →
      globalToLocal W bs gvec lvec (r, k) = lvec (r, k)) := by
  constructor
  · intro r y c hr hy hc
    obtain ⟨g, hg⟩ := get_of_lt hr
    rw [← mem_gbox hg] at hy
    rw [← pos_gbox hg]
    unfold globalToLocal
    apply insertAll_agree
    · rintro ⟨i, r', k⟩ hm he
      rw [mem_g2l D] at hm
      obtain ⟨g', y', c', hg', hy', hc', rfl, rfl⟩ := hm
      simp only [Prod.mk.injEq] at he
      obtain ⟨rfl, he⟩ := he
      rw [hg] at hg'
      cases hg'
      obtain ⟨e1, rfl⟩ := block_inj hc' hc he
      rw [pos_inj hy' hy e1]
    · exact ⟨_, (mem_g2l D bs _ r _).2 ⟨g, y, c, hg, hy, hc, rfl, rfl⟩, rfl⟩
  · intro r k hn
    unfold globalToLocal
    apply insertAll_not_mem
    rintro ⟨i, r', k'⟩ hm he
    simp only [Prod.mk.injEq] at he
    obtain ⟨rfl, rfl⟩ := he
    rw [mem_g2l D] at hm
    obtain ⟨g, y, c, hg, hy, hc, -, rfl⟩ := hm
    exact hn ⟨y, c, (mem_gbox hg y).1 hy, hc, by rw [pos_gbox hg]⟩

theorem filterMap_box {lb gb : List (Int × Int)} (h : Sub lb gb) {α : Type} (F : List Int → Int → α) :
    ((box gb).zipIdx.filterMap fun p => if inb lb p.1 = true then some (F p.1 (p.2:Int)) else none) =
      (box lb).map fun x => F x (pos gb x) := by
  rw [zipIdx_box, List.filterMap_map, ← filter_box h]
  have key : ∀ B : List (List Int), (∀ x ∈ B, 0 ≤ pos gb x) →
      List.filterMap ((fun (p : List Int × Nat) => if inb lb p.1 = true then some (F p.1 (p.2:Int)) else none)
        ∘ fun x => (x, (pos gb x).toNat)) B = (B.filter (inb lb)).map fun x => F x (pos gb x) := by
    intro B
    induction B with
    | nil => intro _; rfl
    | cons b B ih =>
      intro hB
      have hb := hB b (by simp)
      have ih' := ih (fun x hx => hB x (by simp [hx]))
      by_cases hi : inb lb b = true
      · rw [List.filter_cons_of_pos hi, List.map_cons, ← ih', List.filterMap_cons_some]
        rw [Function.comp_apply]
        dsimp only
        rw [if_pos hi, Int.toNat_of_nonneg hb]
      · rw [List.filter_cons_of_neg hi, ← ih', List.filterMap_cons_none]
        rw [Function.comp_apply]
        dsimp only
        rw [if_neg hi]
  exact key _ (fun x hx => (pos_get hx).1)

theorem ilocal_eq {g : List GDir} (h : Sub (lbox g) (gbox g)) : ilocal g = (box (lbox g)).map (pos (gbox g)) := by
  exact filterMap_box h (fun _ i => i)

theorem glob_lbox (D : Decomposed Ns W) {r : Nat} {g : List GDir} (h : W[r]? = some g) :
    ((List.range (nlocal g).toNat).map fun (k : Nat) => offset W r + (k:Int)) =
      (box (lbox g)).map fun x => appToPetsc W (flat Ns x) := by
  have hl := length_local D h
  rw [localIndices_one, List.length_map] at hl
  have e := box_map_pos (lbox g) (fun k => offset W r + k)
  rw [show (nlocal g).toNat = (box (lbox g)).length by omega, ← e]
  apply List.map_congr_left
  intro x hx
  rw [mem_box, lbox_fst, lbox_snd] at hx
  rw [(glob_own D h hx).1]
  unfold pos
  rw [lbox_fst, lbox_snd]

theorem l2g_eq (D : Decomposed Ns W) (hO : OwnedGhosted W) (bs : Nat) : l2g W bs = .ok (W.zipIdx.flatMap fun gr =>
    (box (lbox gr.1)).flatMap fun x => (List.range bs).map fun (c : Nat) =>
      ((gr.2, (bs:Int) * pos (gbox gr.1) x + c), (bs:Int) * appToPetsc W (flat Ns x) + c)) := by
  unfold l2g
  apply collect_ok
  rintro ⟨g, r⟩ hgr
  rw [List.mem_zipIdx_iff_getElem?] at hgr
  dsimp only at hgr ⊢
  have hs := hO g (List.mem_of_getElem? hgr)
  have hl := length_local D hgr
  rw [localIndices_one, List.length_map] at hl
  unfold l2gRank
  rw [if_pos (by rw [ilocal_eq hs, List.length_map]; omega), ilocal_eq hs, strideIS_eq, glob_lbox D hgr, blockIS_zip,
    List.map_flatMap]
  simp only [List.map_map]
  rfl

theorem mem_l2g (bs : Nat) (i : Int) (r : Nat) (k : Int) :
    ((r, k), i) ∈ (W.zipIdx.flatMap fun gr =>
      (box (lbox gr.1)).flatMap fun x => (List.range bs).map fun (c : Nat) =>
        ((gr.2, (bs:Int) * pos (gbox gr.1) x + c), (bs:Int) * appToPetsc W (flat Ns x) + c)) ↔
    ∃ g x, ∃ c : Nat, W[r]? = some g ∧ x ∈ box (lbox g) ∧ c < bs ∧ k = (bs:Int) * pos (gbox g) x + c ∧
      i = (bs:Int) * appToPetsc W (flat Ns x) + c := by
  simp only [List.mem_flatMap, List.mem_map, List.mem_range, Prod.exists, List.mem_zipIdx_iff_getElem?, Prod.mk.injEq]
  constructor
  · rintro ⟨g, r', hg, y, hy, c, hc, ⟨rfl, rfl⟩, rfl⟩
    exact ⟨g, y, c, hg, hy, hc, rfl, rfl⟩
  · rintro ⟨g, y, c, hg, hy, hc, rfl, rfl⟩
    exact ⟨g, r, hg, y, hy, c, hc, ⟨rfl, rfl⟩, rfl⟩

/-- **C27**, local to global with `INSERT_VALUES`: the transfer succeeds, every global entry gets the value its
owner has for it, and nothing else is touched. -/
theorem C27_local_to_global_insert {V : Type} (Ns : List Int) (W : World) (D : Decomposed Ns W) (hNs : ∀ n ∈ Ns, 1 ≤ n)
    (hO : OwnedGhosted W) (bs : Nat) (lvec : Nat × Int → V) (gvec : Int → V) :
    ∃ g', localToGlobalInsert W bs lvec gvec = .ok g' ∧
    (∀ r x c, r < W.length → InBlock (ownStart W r) (ownWidth W r) x → c < bs →
      g' ((bs:Int) * appToPetsc W (flat Ns x) + (c:Nat)) =
        lvec (r, (bs:Int) * flat (ghoWidth W r) (rel (ghoStart W r) x) + c)) ∧
    (∀ i, ¬ (0 ≤ i ∧ i < bs * prod Ns) → g' i = gvec i) := by
  unfold localToGlobalInsert
  rw [l2g_eq D hO]
  refine ⟨_, rfl, ?_, ?_⟩
  · intro r x c hr hx hc
    obtain ⟨g, hg⟩ := get_of_lt hr
    rw [← mem_lbox hg] at hx
    rw [← pos_gbox hg]
    apply insertAll_agree
    · rintro ⟨⟨r', k⟩, i⟩ hm he
      rw [mem_l2g] at hm
      obtain ⟨g', x', c', hg', hx', hc', rfl, rfl⟩ := hm
      dsimp only at he ⊢
      obtain ⟨e1, rfl⟩ := block_inj hc' hc he
      have b := own_blocks D hg
      have b' := own_blocks D hg'
      rw [mem_box, lbox_fst, lbox_snd] at hx hx'
      have e2 := (C26_global_numbering Ns W D hNs).2.1 _ _ (inBlock_inBox b' hx') (inBlock_inBox b hx) e1
      subst e2
      have e3 := owner_unique D hg hg' hx hx'
      subst e3
      rw [hg] at hg'
      cases hg'
      rfl
    · exact ⟨_, (mem_l2g bs _ r _).2 ⟨g, x, c, hg, hx, hc, rfl, rfl⟩, rfl⟩
  · intro i hi
    apply insertAll_not_mem
    rintro ⟨⟨r', k⟩, i'⟩ hm he
    rw [mem_l2g] at hm
    obtain ⟨g', x', c', hg', hx', hc', rfl, rfl⟩ := hm
    dsimp only at he
    apply hi
    rw [mem_box, lbox_fst, lbox_snd] at hx'
    have := (C26_global_numbering Ns W D hNs).1 x' (inBlock_inBox (own_blocks D hg') hx')
    rw [← he]
    constructor
    · have : 0 ≤ (bs:Int) * appToPetsc W (flat Ns x') := Int.mul_nonneg (by omega) this.1
      omega
    · have : (bs:Int) * (appToPetsc W (flat Ns x') + 1) ≤ bs * prod Ns := by
        apply Int.mul_le_mul_of_nonneg_left <;> omega
      rw [Int.mul_add] at this
      omega

theorem index_split {bs : Nat} {N i : Int} (h0 : 0 ≤ i) (h1 : i < bs * N) :
    ∃ b, ∃ c : Nat, 0 ≤ b ∧ b < N ∧ c < bs ∧ i = bs * b + c := by
  have hb : 0 < (bs:Int) := by
    by_contra h
    have : (bs:Int) = 0 := by omega
    rw [this] at h1; omega
  refine ⟨i / bs, (i % bs).toNat, Int.ediv_nonneg h0 (by omega), ?_, ?_, ?_⟩
  · exact Int.ediv_lt_of_lt_mul hb (by rw [Int.mul_comm]; exact h1)
  · have := Int.emod_lt_of_pos i hb
    have := Int.emod_nonneg i (b := bs) (by omega)
    omega
  · have := Int.emod_nonneg i (b := bs) (by omega)
    have := Int.mul_ediv_add_emod i bs
    omega

/-- In a grid without wrap-around every owned node is its own image. -/
theorem wrapAll_self {x : List Int} : ∀ {Ns : List Int}, InBox Ns x → wrapAll Ns x = x := by
  intro Ns h
  induction h with
  | nil => rfl
  | cons h1 h2 ih =>
    unfold wrapAll at ih ⊢
    rw [List.zipWith_cons_cons, ih]
    unfold wrap
    rw [if_neg (by omega), if_neg (by omega)]

/-- **C27**, round trip: a global vector sent to the local vectors and back with `INSERT_VALUES` is unchanged,
whatever the contents of the local vectors and of the destination before. -/
theorem C27_round_trip {V : Type} (Ns : List Int) (W : World) (D : Decomposed Ns W) (hNs : ∀ n ∈ Ns, 1 ≤ n)
    (hO : OwnedGhosted W) (bs : Nat) (gvec gvec' : Int → V) (lvec : Nat × Int → V) :
    ∃ g', localToGlobalInsert W bs (globalToLocal W bs gvec lvec) gvec' = .ok g' ∧
      ∀ i, 0 ≤ i → i < bs * prod Ns → g' i = gvec i := by
  obtain ⟨g', e, h1, -⟩ := C27_local_to_global_insert Ns W D hNs hO bs (globalToLocal W bs gvec lvec) gvec'
  refine ⟨g', e, ?_⟩
  intro i hi0 hi1
  obtain ⟨b, c, b0, b1, hc, rfl⟩ := index_split hi0 hi1
  obtain ⟨x, hx, rfl⟩ := (C26_global_numbering Ns W D hNs).2.2.1 b b0 b1
  obtain ⟨r, ⟨hr, hb⟩, -⟩ := D.part.owner x hx
  rw [h1 r x c hr hb hc]
  obtain ⟨g, hg⟩ := get_of_lt hr
  have hxg := sub_mem (hO g (List.mem_of_getElem? hg)) ((mem_lbox hg x).2 hb)
  rw [(C27_global_to_local Ns W D bs gvec lvec).1 r x c hr ((mem_gbox hg x).1 hxg) hc, wrapAll_self hx]

/-- **C27**, local to global with `ADD_VALUES`: to each global entry are added the values that all processes hold
for the ghosted nodes that wrap to it, each exactly once. -/
theorem C27_local_to_global_add {V : Type} [AddCommMonoid V] (Ns : List Int) (W : World) (D : Decomposed Ns W)
    (hNs : ∀ n ∈ Ns, 1 ≤ n) (hw : GhostWraps Ns W) (bs : Nat) (lvec : Nat × Int → V) (gvec : Int → V)
    (x : List Int) (hx : InBox Ns x) (c : Nat) (hc : c < bs) :
    localToGlobalAdd W bs lvec gvec ((bs:Int) * appToPetsc W (flat Ns x) + c) =
      gvec ((bs:Int) * appToPetsc W (flat Ns x) + c) +
        (W.zipIdx.flatMap fun gr => ((box (gbox gr.1)).filter fun y => decide (wrapAll Ns y = x)).map fun y =>
          lvec (gr.2, (bs:Int) * flat (ghoWidth W gr.2) (rel (ghoStart W gr.2) y) + c)).sum := by
  unfold localToGlobalAdd
  rw [addAll_eq]
  congr 2
  unfold reverse
  rw [g2l_eq D, List.map_flatMap, List.filter_flatMap, List.map_flatMap, List.flatMap_def, List.flatMap_def]
  congr 1
  apply List.map_congr_left
  rintro ⟨g, r⟩ hgr
  rw [List.mem_zipIdx_iff_getElem?] at hgr
  dsimp only at hgr ⊢
  rw [List.map_flatMap, List.filter_flatMap, List.map_flatMap]
  have key : ∀ B : List (List Int), (∀ y ∈ B, y ∈ box (gbox g)) →
      (B.flatMap fun a => List.map (fun p : (Nat × Int) × Int => lvec p.1)
        (List.filter (fun p : (Nat × Int) × Int => decide (p.2 = (bs:Int) * appToPetsc W (flat Ns x) + c))
          (List.map Prod.swap ((List.range bs).map fun (c : Nat) =>
            ((bs:Int) * appToPetsc W (flat Ns (wrapAll Ns a)) + c, (r, (bs:Int) * pos (gbox g) a + c)))))) =
      (B.filter fun y => decide (wrapAll Ns y = x)).map fun y =>
        lvec (r, (bs:Int) * flat (ghoWidth W r) (rel (ghoStart W r) y) + c) := by
    intro B
    induction B with
    | nil => intro _; rfl
    | cons y B ih =>
      intro hB
      have hy := hB y (by simp)
      rw [List.flatMap_cons, ih (fun a ha => hB a (by simp [ha]))]
      have hwy := hw r y (rank_lt hgr) ((mem_gbox hgr y).1 hy)
      have hone : ∀ n : Nat, n ≤ bs → List.filter (fun p : (Nat × Int) × Int => decide (p.2 = (bs:Int) * appToPetsc W (flat Ns x) + c))
          (List.map Prod.swap ((List.range n).map fun (c : Nat) =>
            ((bs:Int) * appToPetsc W (flat Ns (wrapAll Ns y)) + c, (r, (bs:Int) * pos (gbox g) y + c)))) =
          if wrapAll Ns y = x ∧ c < n then [((r, (bs:Int) * pos (gbox g) y + c), (bs:Int) * appToPetsc W (flat Ns x) + c)] else [] := by
        intro n
        induction n with
        | zero => intro _; simp
        | succ n ihn =>
          intro hn
          rw [List.range_succ, List.map_append, List.map_append, List.filter_append, ihn (by omega)]
          simp only [List.map_cons, List.map_nil, Prod.swap]
          by_cases hyx : wrapAll Ns y = x
          · subst hyx
            rcases Nat.lt_trichotomy c n with h | h | h
            · rw [if_pos ⟨rfl, h⟩, if_pos ⟨rfl, by omega⟩, List.filter_cons_of_neg (by simp; omega)]; rfl
            · subst h
              rw [if_neg (by omega), if_pos ⟨rfl, by omega⟩, List.filter_cons_of_pos (by simp)]; rfl
            · rw [if_neg (by omega), if_neg (by omega), List.filter_cons_of_neg (by simp; omega)]; rfl
          · rw [if_neg (fun h => hyx h.1), if_neg (fun h => hyx h.1), List.filter_cons_of_neg]
            · rfl
            · simp only [decide_eq_true_eq]
              intro he
              have := block_inj (by omega) hc he
              exact hyx ((C26_global_numbering Ns W D hNs).2.1 _ _ hwy hx this.1)
      rw [hone bs (le_refl _)]
      by_cases hyx : wrapAll Ns y = x
      · rw [if_pos ⟨hyx, hc⟩, List.filter_cons_of_pos (by simpa using hyx), List.map_cons, List.map_cons, pos_gbox hgr]; rfl
      · rw [if_neg (fun h => hyx h.1), List.filter_cons_of_neg (by simpa using hyx)]; rfl
  exact key _ (fun y hy => hy)

theorem addAll_pairing {α β R : Type} [DecidableEq β] [CommSemiring R] (S : List β) (hS : S.Nodup) (h : β → R) (x : α → R) :
    ∀ (ps : List (α × β)) (y : β → R), (∀ p ∈ ps, p.2 ∈ S) →
      (S.map fun i => h i * addAll ps x y i).sum = (S.map fun i => h i * y i).sum + (ps.map fun p => h p.2 * x p.1).sum := by
  intro ps
  induction ps with
  | nil => intro y _; simp [addAll]
  | cons p ps ih =>
    intro y hp
    have e : ∀ i, addAll (p :: ps) x y i = addAll ps x (upd y p.2 (y p.2 + x p.1)) i := fun i => rfl
    simp only [e]
    rw [ih _ (fun q hq => hp q (by simp [hq])), List.map_cons, List.sum_cons, ← add_assoc]
    congr 1
    have hm := hp p (by simp)
    clear ih hp e
    induction S with
    | nil => simp at hm
    | cons b S ihS =>
      rw [List.nodup_cons] at hS
      rw [List.map_cons, List.sum_cons, List.map_cons, List.sum_cons]
      by_cases hb : b = p.2
      · have hrest : (S.map fun i => h i * upd y p.2 (y p.2 + x p.1) i) = S.map fun i => h i * y i := by
          apply List.map_congr_left
          intro i hi
          unfold upd
          rw [if_neg]
          rintro rfl
          exact hS.1 (hb ▸ hi)
        rw [hrest, hb]
        unfold upd
        rw [if_pos rfl]
        ring
      · rw [ihS hS.2 (by rcases List.mem_cons.1 hm with h' | h'; exact absurd h'.symm hb; exact h')]
        unfold upd
        rw [if_neg hb]
        ring

/-- **C27**, `LocalToGlobal(ADD)` is the transpose of `GlobalToLocal`: pairing a global vector `h` with the
assembled vector is the same as pairing the local copies of `h` with the local contributions. -/
theorem C27_add_is_transpose {R : Type} [CommSemiring R] (Ns : List Int) (W : World) (D : Decomposed Ns W)
    (hNs : ∀ n ∈ Ns, 1 ≤ n) (hw : GhostWraps Ns W) (bs : Nat) (h : Int → R) (lvec junk : Nat × Int → R) :
    ((List.range (bs * (prod Ns).toNat)).map fun (i : Nat) => h i * localToGlobalAdd W bs lvec (fun _ => 0) i).sum =
    (W.zipIdx.map fun gr => ((box (gbox gr.1)).map fun y => ((List.range bs).map fun (c : Nat) =>
      globalToLocal W bs h junk (gr.2, (bs:Int) * flat (ghoWidth W gr.2) (rel (ghoStart W gr.2) y) + c) *
        lvec (gr.2, (bs:Int) * flat (ghoWidth W gr.2) (rel (ghoStart W gr.2) y) + c)).sum).sum).sum := by
  have hP := prod_pos hNs
  have h1 := addAll_pairing ((List.range (bs * (prod Ns).toNat)).map fun (i : Nat) => (i:Int))
    (by rw [List.nodup_map_iff_inj_on List.nodup_range]; intro a _ b _ he; omega) h lvec (reverse (g2l W bs)) (fun _ => 0)
    (by
      rintro ⟨⟨r, k⟩, i⟩ hp
      unfold reverse at hp
      rw [List.mem_map] at hp
      obtain ⟨⟨i', r', k'⟩, hp, he⟩ := hp
      simp only [Prod.swap, Prod.mk.injEq] at he
      obtain ⟨⟨rfl, rfl⟩, rfl⟩ := he
      rw [mem_g2l D] at hp
      obtain ⟨g, y, c, hg, hy, hc, rfl, rfl⟩ := hp
      have := (C26_global_numbering Ns W D hNs).1 _ (hw _ y (rank_lt hg) ((mem_gbox hg y).1 hy))
      rw [List.mem_map]
      have a1 : 0 ≤ (bs:Int) * appToPetsc W (flat Ns (wrapAll Ns y)) := Int.mul_nonneg (by omega) this.1
      have a2 : (bs:Int) * (appToPetsc W (flat Ns (wrapAll Ns y)) + 1) ≤ bs * prod Ns := by
        apply Int.mul_le_mul_of_nonneg_left <;> omega
      rw [Int.mul_add] at a2
      refine ⟨((bs:Int) * appToPetsc W (flat Ns (wrapAll Ns y)) + c).toNat, ?_, by omega⟩
      rw [List.mem_range]
      zify
      rw [Int.toNat_of_nonneg (by omega), Int.toNat_of_nonneg (by omega)]
      omega)
  have h0 : (((List.range (bs * (prod Ns).toNat)).map fun (i : Nat) => (i:Int)).map fun i => h i * (fun _ => (0:R)) i).sum = 0 := by
    have : ∀ l : List Int, (l.map fun i => h i * (fun _ => (0:R)) i).sum = 0 := by
      intro l; induction l with
      | nil => simp
      | cons a l ih => rw [List.map_cons, List.sum_cons, ih]; simp
    exact this _
  rw [h0, zero_add, List.map_map] at h1
  have e1 : ((List.range (bs * (prod Ns).toNat)).map fun (i : Nat) => h i * localToGlobalAdd W bs lvec (fun _ => 0) i) =
      List.map ((fun i => h i * addAll (reverse (g2l W bs)) lvec (fun _ => 0) i) ∘ fun (i : Nat) => (i:Int)) (List.range (bs * (prod Ns).toNat)) := rfl
  rw [e1, h1]
  unfold reverse
  rw [List.map_map]
  have hsum : ∀ {γ : Type} (F : γ → List R) (l : List γ), (l.flatMap F).sum = (l.map fun a => (F a).sum).sum := by
    intro γ F l
    induction l with
    | nil => rfl
    | cons a l ih => rw [List.flatMap_cons, List.sum_append, ih, List.map_cons, List.sum_cons]
  rw [g2l_eq D, List.map_flatMap, hsum]
  congr 1
  apply List.map_congr_left
  rintro ⟨g, r⟩ hgr
  rw [List.mem_zipIdx_iff_getElem?] at hgr
  dsimp only at hgr ⊢
  rw [List.map_flatMap, hsum]
  congr 1
  apply List.map_congr_left
  intro y hy
  congr 1
  rw [List.map_map]
  apply List.map_congr_left
  intro c hc
  rw [List.mem_range] at hc
  rw [(C27_global_to_local Ns W D bs h junk).1 r y c (rank_lt hgr) ((mem_gbox hgr y).1 hy) hc, ← pos_gbox hgr]
  rfl

end

/-! ### C28 -/

/-- First corner of the natural entries written by rank `r`. -/
def appStart (A : List (List ADir)) (r : Nat) : List Int := ((A[r]?).getD []).map ADir.start
/-- Extents of the natural entries written by rank `r`. -/
def appWidth (A : List (List ADir)) (r : Nat) : List Int := ((A[r]?).getD []).map ADir.width

/-- What the transfers between global and natural order rely on: `Ns` is the node grid, `Gs` the natural grid
(control points), `sh` the position of node 0 in it.  For the setup see `C28_after_setup`. -/
structure AppGrid (Ns Gs sh : List Int) (A : List (List ADir)) : Prop where
  D : Decomposed Ns (world A)
  wraps : GhostWraps Ns (world A)
  sizes : ∀ a ∈ A, a.map ADir.size = Gs
  shift : ∀ a ∈ A, a.map ADir.shift = sh
  part : Partitions Gs A.length (appStart A) (appWidth A)
  shifted : ∀ x, InBox Ns x → InBox Gs (shiftBy sh x)
  /-- the natural entries of a rank are ghosted nodes of that rank -/
  cover : ∀ a ∈ A, Sub (a.map fun d => (d.start, d.width)) (a.map fun d => (d.shift + d.g.gstart, d.g.gwidth))

theorem box_shift (s w h : ADir → Int) : ∀ a : List ADir,
    box (a.map fun d => (h d + s d, w d)) = (box (a.map fun d => (s d, w d))).map (shiftBy (a.map h))
  | [] => rfl
  | d :: a => by
    simp only [List.map_cons, box]
    rw [box_shift s w h a, List.flatMap_map, List.map_flatMap]
    rw [List.flatMap_def, List.flatMap_def]
    congr 1
    apply List.map_congr_left
    intro is _
    rw [List.map_map]
    apply List.map_congr_left
    intro k _
    simp only [Function.comp_apply, shiftBy, List.zipWith_cons_cons, List.cons.injEq, and_true]
    ring

theorem rel_shiftBy : ∀ (h x : List Int), x.length = h.length → rel h (shiftBy h x) = x
  | [], [], _ => rfl
  | [], _ :: _, e => by simp at e
  | _ :: _, [], e => by simp at e
  | h :: hs, i :: x, e => by
    have := rel_shiftBy hs x (by simpa using e)
    unfold rel shiftBy at this ⊢
    simp only [List.zipWith_cons_cons, this, List.cons.injEq, and_true]
    ring

theorem shiftBy_rel : ∀ (h x : List Int), x.length = h.length → shiftBy h (rel h x) = x
  | [], [], _ => rfl
  | [], _ :: _, e => by simp at e
  | _ :: _, [], e => by simp at e
  | h :: hs, i :: x, e => by
    have := shiftBy_rel hs x (by simpa using e)
    unfold rel shiftBy at this ⊢
    simp only [List.zipWith_cons_cons, this, List.cons.injEq, and_true]
    ring

theorem inBlock_length {s w x : List Int} (h : InBlock s w x) : x.length = s.length := by
  induction h with
  | nil => rfl
  | cons _ _ ih => simp [ih]

section
variable {Ns Gs sh : List Int} {A : List (List ADir)}

theorem world_get {r : Nat} {a : List ADir} (h : A[r]? = some a) : (world A)[r]? = some (a.map ADir.g) := by
  unfold world; rw [List.getElem?_map, h]; rfl

theorem app_get {r : Nat} {a : List ADir} (h : A[r]? = some a) :
    appStart A r = a.map ADir.start ∧ appWidth A r = a.map ADir.width := by
  unfold appStart appWidth; rw [h]; simp

theorem n2gRank_eq (H : AppGrid Ns Gs sh A) (bs : Nat) {r : Nat} {a : List ADir} (h : A[r]? = some a) :
    n2gRank (world A) bs a r = (box (lbox (a.map ADir.g))).flatMap fun x => (List.range bs).map fun (c : Nat) =>
      ((bs:Int) * flat Gs (shiftBy sh x) + c, (bs:Int) * appToPetsc (world A) (flat Ns x) + c) := by
  unfold n2gRank
  have e : (box (a.map fun d => (d.shift + d.g.lstart, d.g.lwidth))).map (natural 1 (a.map ADir.size)) =
      (box (lbox (a.map ADir.g))).map fun x => flat Gs (shiftBy sh x) := by
    rw [box_shift (fun d => d.g.lstart) (fun d => d.g.lwidth) ADir.shift, List.map_map]
    have : lbox (a.map ADir.g) = a.map fun d => (d.g.lstart, d.g.lwidth) := by unfold lbox; rw [List.map_map]; rfl
    rw [this]
    apply List.map_congr_left
    intro x _
    rw [Function.comp_apply, natural_one, H.sizes a (List.mem_of_getElem? h), H.shift a (List.mem_of_getElem? h)]
  dsimp only
  rw [e, strideIS_eq, glob_lbox H.D (world_get h), blockIS_zip]

theorem appNodes_eq (H : AppGrid Ns Gs sh A) {a : List ADir} (h : a ∈ A) :
    appNodes a = (box (a.map fun d => (d.start, d.width))).map fun y =>
      (pos (a.map fun d => (d.shift + d.g.gstart, d.g.gwidth)) y, y) := by
  unfold appNodes
  rw [← filterMap_box (H.cover a h) (fun x i => (i, x))]
  congr 1
  funext p
  unfold inb
  rw [List.zipWith_map_left]

theorem lgmap_at (H : AppGrid Ns Gs sh A) {r : Nat} {a : List ADir} (h : A[r]? = some a) {y : List Int}
    (hy : y ∈ box (a.map fun d => (d.shift + d.g.gstart, d.g.gwidth))) :
    (lgmap (world A) (a.map ADir.g)).getD (pos (a.map fun d => (d.shift + d.g.gstart, d.g.gwidth)) y).toNat (-1) =
      appToPetsc (world A) (flat Ns (wrapAll Ns (rel sh y))) := by
  have e1 := (pos_get hy).2
  generalize (pos (a.map fun d => (d.shift + d.g.gstart, d.g.gwidth)) y).toNat = k at *
  rw [box_shift (fun d => d.g.gstart) (fun d => d.g.gwidth) ADir.shift, List.getElem?_map] at e1
  have : gbox (a.map ADir.g) = a.map fun d => (d.g.gstart, d.g.gwidth) := by unfold gbox; rw [List.map_map]; rfl
  rw [← this] at e1
  cases hx : (box (gbox (a.map ADir.g)))[k]? with
  | none => rw [hx] at e1; simp at e1
  | some x =>
    rw [hx] at e1
    simp only [Option.map_some, Option.some.injEq] at e1
    rw [H.shift a (List.mem_of_getElem? h)] at e1
    have hl : x.length = sh.length := by
      have := inBlock_length ((mem_box _ _).1 (List.mem_of_getElem? hx))
      rw [this, ← H.shift a (List.mem_of_getElem? h), gbox_fst]; simp
    unfold lgmap
    rw [ghostIndices_one, List.map_map, List.getD_eq_getElem?_getD, List.getElem?_map, hx,
      H.D.sizes _ (List.mem_of_getElem? (world_get h)), ← e1, rel_shiftBy _ _ hl]
    rfl

theorem app_length (H : AppGrid Ns Gs sh A) {r : Nat} {a : List ADir} (h : A[r]? = some a) :
    (appNodes a).length = ((a.map ADir.width).foldl (· * ·) 1).toNat := by
  have hb := H.part.inside r ((List.getElem?_eq_some_iff.1 h).1)
  rw [(app_get h).1, (app_get h).2] at hb
  rw [appNodes_eq H (List.mem_of_getElem? h), List.length_map, foldl_mul, one_mul]
  have := length_box (a.map fun d => (d.start, d.width)) (by
    intro p hp
    rw [List.mem_map] at hp
    obtain ⟨d, hd, rfl⟩ := hp
    have := (blocks_pos hb).1 d.width (List.mem_map.2 ⟨d, hd, rfl⟩)
    dsimp only; omega)
  rw [List.map_map] at this
  have e : a.map (Prod.snd ∘ fun d => (d.start, d.width)) = a.map ADir.width := rfl
  rw [e] at this
  omega

theorem g2nRank_eq (H : AppGrid Ns Gs sh A) (bs : Nat) {r : Nat} {a : List ADir} (h : A[r]? = some a) :
    g2nRank (world A) bs a = .ok ((box (a.map fun d => (d.start, d.width))).flatMap fun y => (List.range bs).map fun (c : Nat) =>
      ((bs:Int) * appToPetsc (world A) (flat Ns (wrapAll Ns (rel sh y))) + c, (bs:Int) * flat Gs y + c)) := by
  unfold g2nRank
  rw [if_pos (app_length H h), appNodes_eq H (List.mem_of_getElem? h), List.map_map, List.map_map]
  dsimp only
  have e1 : (box (a.map fun d => (d.start, d.width))).map ((fun p : Int × List Int => (lgmap (world A) (a.map ADir.g)).getD p.1.toNat (-1)) ∘
      fun y => (pos (a.map fun d => (d.shift + d.g.gstart, d.g.gwidth)) y, y)) =
      (box (a.map fun d => (d.start, d.width))).map fun y => appToPetsc (world A) (flat Ns (wrapAll Ns (rel sh y))) := by
    apply List.map_congr_left
    intro y hy
    rw [Function.comp_apply]
    exact lgmap_at H h (sub_mem (H.cover a (List.mem_of_getElem? h)) hy)
  have e2 : (box (a.map fun d => (d.start, d.width))).map ((fun p : Int × List Int => natural 1 (a.map ADir.size) p.2) ∘
      fun y => (pos (a.map fun d => (d.shift + d.g.gstart, d.g.gwidth)) y, y)) =
      (box (a.map fun d => (d.start, d.width))).map fun y => flat Gs y := by
    apply List.map_congr_left
    intro y _
    rw [Function.comp_apply, natural_one, H.sizes a (List.mem_of_getElem? h)]
  rw [e1, e2, blockIS_zip]

/-- **C28**, global to natural: the transfer succeeds and entry `y` of the natural grid gets the value of the node
`y - shift` wraps to. -/
theorem C28_global_to_natural {V : Type} (Ns Gs sh : List Int) (A : List (List ADir)) (H : AppGrid Ns Gs sh A)
    (bs : Nat) (gvec nvec : Int → V) :
    ∃ n', globalToNatural A bs gvec nvec = .ok n' ∧ ∀ y, InBox Gs y → ∀ c, c < bs →
      n' ((bs:Int) * flat Gs y + (c:Nat)) = gvec ((bs:Int) * appToPetsc (world A) (flat Ns (wrapAll Ns (rel sh y))) + c) := by
  unfold globalToNatural
  rw [collect_ok _ (fun a => (box (a.map fun d => (d.start, d.width))).flatMap fun y => (List.range bs).map fun (c : Nat) =>
      ((bs:Int) * appToPetsc (world A) (flat Ns (wrapAll Ns (rel sh y))) + c, (bs:Int) * flat Gs y + c))]
  swap
  · intro a ha
    obtain ⟨r, hr⟩ := List.getElem?_of_mem ha
    exact g2nRank_eq H bs hr
  refine ⟨_, rfl, ?_⟩
  have mb : ∀ (r : Nat) (a : List ADir), A[r]? = some a → ∀ y, y ∈ box (a.map fun d => (d.start, d.width)) ↔
      InBlock (appStart A r) (appWidth A r) y := by
    intro r a ha y
    rw [mem_box, (app_get ha).1, (app_get ha).2, List.map_map, List.map_map]; rfl
  intro y hy c hc
  obtain ⟨r, ⟨hr, hb⟩, -⟩ := H.part.owner y hy
  have ha : A[r]? = some A[r] := by simp [hr]
  rw [← mb r _ ha] at hb
  apply insertAll_agree
  · rintro ⟨i, j⟩ hp he
    simp only [List.mem_flatMap, List.mem_map, List.mem_range, Prod.mk.injEq] at hp
    obtain ⟨a', ha', y', hy', c', hc', rfl, rfl⟩ := hp
    dsimp only at he ⊢
    obtain ⟨e1, rfl⟩ := block_inj hc' hc he
    obtain ⟨r', hr'⟩ := List.getElem?_of_mem ha'
    have hin := inBlock_inBox (H.part.inside r' ((List.getElem?_eq_some_iff.1 hr').1)) ((mb r' a' hr' y').1 hy')
    rw [flat_inj hin hy e1]
  · refine ⟨((bs:Int) * appToPetsc (world A) (flat Ns (wrapAll Ns (rel sh y))) + c, (bs:Int) * flat Gs y + c), ?_, rfl⟩
    simp only [List.mem_flatMap, List.mem_map, List.mem_range]
    exact ⟨A[r], List.getElem_mem hr, y, hb, c, hc, rfl⟩

/-- **C28**, natural to global: node `x` gets the natural entry `x + shift`. -/
theorem C28_natural_to_global {V : Type} (Ns Gs sh : List Int) (A : List (List ADir)) (H : AppGrid Ns Gs sh A)
    (hNs : ∀ n ∈ Ns, 1 ≤ n) (bs : Nat) (nvec gvec : Int → V) (x : List Int) (hx : InBox Ns x) (c : Nat) (hc : c < bs) :
    naturalToGlobal A bs nvec gvec ((bs:Int) * appToPetsc (world A) (flat Ns x) + c) =
      nvec ((bs:Int) * flat Gs (shiftBy sh x) + c) := by
  unfold naturalToGlobal
  obtain ⟨r, ⟨hr, hb⟩, -⟩ := H.D.part.owner x hx
  have hr' : r < A.length := by unfold world at hr; simpa using hr
  have ha : A[r]? = some A[r] := by simp [hr']
  rw [← mem_lbox (world_get ha)] at hb
  apply insertAll_agree
  · rintro ⟨j, i⟩ hp he
    simp only [List.mem_flatMap, Prod.exists, List.mem_zipIdx_iff_getElem?] at hp
    obtain ⟨a', r', ha', hp⟩ := hp
    rw [n2gRank_eq H bs ha'] at hp
    simp only [List.mem_flatMap, List.mem_map, List.mem_range, Prod.mk.injEq] at hp
    obtain ⟨x', hx', c', hc', rfl, rfl⟩ := hp
    dsimp only at he ⊢
    obtain ⟨e1, rfl⟩ := block_inj hc' hc he
    rw [mem_box, lbox_fst, lbox_snd] at hx'
    rw [(C26_global_numbering Ns _ H.D hNs).2.1 _ _ (inBlock_inBox (own_blocks H.D (world_get ha')) hx') hx e1]
  · refine ⟨((bs:Int) * flat Gs (shiftBy sh x) + c, (bs:Int) * appToPetsc (world A) (flat Ns x) + c), ?_, rfl⟩
    simp only [List.mem_flatMap, Prod.exists, List.mem_zipIdx_iff_getElem?]
    refine ⟨A[r], r, ha, ?_⟩
    rw [n2gRank_eq H bs ha]
    simp only [List.mem_flatMap, List.mem_map, List.mem_range]
    exact ⟨x, hb, c, hc, rfl⟩

theorem inBox_length {n x : List Int} (h : InBox n x) : x.length = n.length := (List.Forall₂.length_eq h).symm

theorem shift_length (H : AppGrid Ns Gs sh A) {x : List Int} (hx : InBox Ns x) : x.length = sh.length := by
  obtain ⟨r, ⟨hr, hb⟩, -⟩ := H.D.part.owner x hx
  have hr' : r < A.length := by unfold world at hr; simpa using hr
  have ha : A[r]? = some A[r] := by simp [hr']
  rw [inBlock_length hb, (own_get (world_get ha)).1, ← H.shift _ (List.getElem_mem hr')]
  simp

/-- **C28**, across runs: a vector converted to natural order by one decomposition and read back by another one
with the same grids (another number of processes, another partition) has the same value at every node.  With
`A' = A` this is the round trip global -> natural -> global. -/
theorem C28_process_independent {V : Type} (Ns Gs sh : List Int) (A A' : List (List ADir)) (H : AppGrid Ns Gs sh A)
    (H' : AppGrid Ns Gs sh A') (hNs : ∀ n ∈ Ns, 1 ≤ n) (bs : Nat) (gvec nvec gvec' : Int → V) :
    ∃ n', globalToNatural A bs gvec nvec = .ok n' ∧ ∀ x, InBox Ns x → ∀ c, c < bs →
      naturalToGlobal A' bs n' gvec' ((bs:Int) * appToPetsc (world A') (flat Ns x) + (c:Nat)) =
        gvec ((bs:Int) * appToPetsc (world A) (flat Ns x) + c) := by
  obtain ⟨n', e, h⟩ := C28_global_to_natural Ns Gs sh A H bs gvec nvec
  refine ⟨n', e, ?_⟩
  intro x hx c hc
  rw [C28_natural_to_global Ns Gs sh A' H' hNs bs n' gvec' x hx c hc, h _ (H.shifted x hx) c hc,
    rel_shiftBy _ _ (shift_length H hx), wrapAll_self hx]

/-- **C28**, round trip on the entries of the global vector. -/
theorem C28_global_round_trip {V : Type} (Ns Gs sh : List Int) (A : List (List ADir)) (H : AppGrid Ns Gs sh A)
    (hNs : ∀ n ∈ Ns, 1 ≤ n) (bs : Nat) (gvec nvec gvec' : Int → V) :
    ∃ n', globalToNatural A bs gvec nvec = .ok n' ∧
      ∀ i, 0 ≤ i → i < bs * prod Ns → naturalToGlobal A bs n' gvec' i = gvec i := by
  obtain ⟨n', e, h⟩ := C28_process_independent Ns Gs sh A A H H hNs bs gvec nvec gvec'
  refine ⟨n', e, ?_⟩
  intro i h0 h1
  obtain ⟨b, c, b0, b1, hc, rfl⟩ := index_split h0 h1
  obtain ⟨x, hx, rfl⟩ := (C26_global_numbering Ns _ H.D hNs).2.2.1 b b0 b1
  exact h x hx c hc

/-- **C28**, round trip natural -> global -> natural.  The natural vector has one entry per control point, which on
a periodic axis is more than the number of nodes; it comes back with every entry replaced by the entry of the node
it wraps to, so it is unchanged exactly when it was periodic. -/
theorem C28_natural_round_trip {V : Type} (Ns Gs sh : List Int) (A : List (List ADir)) (H : AppGrid Ns Gs sh A)
    (hNs : ∀ n ∈ Ns, 1 ≤ n) (bs : Nat) (nvec gvec nvec' : Int → V) :
    ∃ n', globalToNatural A bs (naturalToGlobal A bs nvec gvec) nvec' = .ok n' ∧
      ∀ y, InBox Gs y → ∀ c, c < bs → 
        n' ((bs:Int) * flat Gs y + (c:Nat)) = nvec ((bs:Int) * flat Gs (shiftBy sh (wrapAll Ns (rel sh y))) + c) := by
  obtain ⟨n', e, h⟩ := C28_global_to_natural Ns Gs sh A H bs (naturalToGlobal A bs nvec gvec) nvec'
  refine ⟨n', e, ?_⟩
  intro y hy c hc
  rw [h y hy c hc]
  apply C28_natural_to_global Ns Gs sh A H hNs bs nvec gvec _ _ c hc
  obtain ⟨r, ⟨hr, hb⟩, -⟩ := H.part.owner y hy
  have ha : A[r]? = some A[r] := by simp [hr]
  have hsub := sub_mem (H.cover _ (List.getElem_mem hr)) (x := y) (by
    rw [mem_box, List.map_map, List.map_map]
    rw [(app_get ha).1, (app_get ha).2] at hb
    exact hb)
  have : (A[r].map fun d => (d.g.gstart, d.g.gwidth)) = gbox (A[r].map ADir.g) := by unfold gbox; rw [List.map_map]; rfl
  rw [box_shift (fun d => d.g.gstart) (fun d => d.g.gwidth) ADir.shift, List.mem_map, this] at hsub
  obtain ⟨x, hx, rfl⟩ := hsub
  rw [H.shift _ (List.getElem_mem hr)]
  have hl : x.length = sh.length := by
    rw [inBlock_length ((mem_box _ _).1 hx), ← H.shift _ (List.getElem_mem hr), gbox_fst]; simp
  rw [rel_shiftBy _ _ hl]
  exact H.wraps r x (by unfold world; simpa using hr) ((mem_gbox (world_get ha) x).1 hx)

/-- **C28**, the non-periodic case: with one natural entry per node (no shift) the two conversions are mutually
inverse. -/
theorem C28_natural_round_trip_nonperiodic {V : Type} (Ns sh : List Int) (A : List (List ADir)) (H : AppGrid Ns Ns sh A)
    (hNs : ∀ n ∈ Ns, 1 ≤ n) (hsh : ∀ s ∈ sh, s = 0) (bs : Nat) (nvec gvec nvec' : Int → V) :
    ∃ n', globalToNatural A bs (naturalToGlobal A bs nvec gvec) nvec' = .ok n' ∧
      ∀ i, 0 ≤ i → i < bs * prod Ns → n' i = nvec i := by
  obtain ⟨n', e, h⟩ := C28_natural_round_trip Ns Ns sh A H hNs bs nvec gvec nvec'
  refine ⟨n', e, ?_⟩
  intro i h0 h1
  obtain ⟨b, c, b0, b1, hc, rfl⟩ := index_split h0 h1
  obtain ⟨y, hy, rfl⟩ := flat_surj hNs b0 b1
  have z : ∀ (h x : List Int), (∀ s ∈ h, s = 0) → x.length = h.length → rel h x = x ∧ shiftBy h x = x := by
    intro h
    induction h with
    | nil => intro x _ hl; rw [List.length_nil, List.length_eq_zero_iff] at hl; subst hl; exact ⟨rfl, rfl⟩
    | cons a h ih =>
      intro x hz hl
      cases x with
      | nil => simp at hl
      | cons i x =>
        obtain ⟨e1, e2⟩ := ih x (fun s hs => hz s (by simp [hs])) (by simpa using hl)
        have := hz a (by simp)
        unfold rel at e1 ⊢; unfold shiftBy at e2 ⊢
        simp [e1, e2, this]
  have hl := shift_length H hy
  rw [h y hy c hc, (z sh y hsh hl).1, wrapAll_self hy, (z sh y hsh hl).2]

end
end PetIGA.Grid
