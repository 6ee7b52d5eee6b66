import Verif.Lemmas.IOFile
/-! Lemmas about geometry and property arrays in files. -/
set_option linter.unusedSectionVars false
namespace PetIGA.IO
open PetIGA.Ax PetIGA.Lay PetIGA.Grid PetIGA.Spec PetIGA.Part PetIGA.Asm

variable {K V : Type} [Field K] [LinearOrder K] [IsStrictOrderedRing K]

/-- What the file has for a control point: `w X_0, …, w X_{nsd-1}, w`, where points of weight 0 are written as they are. -/
def homogeneous (nsd : Nat) (coord : List Int → Nat → K) (w : List Int → K) (y : List Int) (c : Nat) : K :=
  if c < nsd then coord y c * (if |w y| > 0 then w y else 1) else w y

theorem index_eq (n a c : Nat) : ((n:Int) * (a:Int) + (c:Int)).toNat = c + n * a := by
  rw [show (n:Int) * (a:Int) + (c:Int) = ((c + n * a : Nat) : Int) by push_cast; ring]; rfl

theorem index_nat {start width y : List Int} (hy : InBlock start width y) :
    ∃ a : Nat, flat width (rel start y) = a ∧ (a:Int) < prod width := by
  have := flat_range (rel_inBox hy)
  exact ⟨(flat width (rel start y)).toNat, by omega, by omega⟩

theorem stores_at {start width : List Int} {n : Nat} {arr : List K} {f : List Int → Nat → K} (h : Stores start width n arr f)
    {y : List Int} (hy : InBlock start width y) {a : Nat} (ha : flat width (rel start y) = a) {c : Nat} (hc : c < n) :
    arr[c + n * a]? = some (f y c) := by
  have := h.entry y hy c hc
  rw [ha] at this
  rw [index_eq] at this
  exact this

theorem stores_block {start width : List Int} {n N : Nat} (g : Nat → Nat → K) {f : List Int → Nat → K}
    (hN : (N:Int) = prod width)
    (h : ∀ y, InBlock start width y → ∀ a : Nat, flat width (rel start y) = a → ∀ c, c < n → g a c = f y c) :
    Stores start width n ((List.range N).flatMap fun a => (List.range n).map (g a)) f := by
  constructor
  · rw [flatMap_block_length, List.length_range]; push_cast; rw [hN]
  · intro y hy c hc
    obtain ⟨a, ha, hlt⟩ := index_nat hy
    rw [ha, index_eq, flatMap_block _ _ _ _ _ hc,
      List.getElem?_range (by omega), Option.map_some, h y hy a ha c hc]

theorem homog_ok {start width : List Int} {nsd N : Nat} {X : List K} {Wt : Option (List K)} {coord : List Int → Nat → K}
    {w : List Int → K} (hN : (N:Int) = prod width) (hX : Stores start width nsd X coord) (hW : StoresWeights start width Wt w) :
    ∃ loc, homog nsd N X Wt = .ok loc ∧ Stores start width (nsd+1) loc (homogeneous nsd coord w) := by
  have hlen : N * nsd ≤ X.length := by
    have := hX.length
    rw [← hN] at this
    have : X.length = nsd * N := by exact_mod_cast this
    rw [this, Nat.mul_comm]
  have getX : ∀ y, InBlock start width y → ∀ a : Nat, flat width (rel start y) = a → ∀ c, c < nsd →
      X.getD (c + a * nsd) 0 = coord y c := by
    intro y hy a ha c hc
    rw [List.getD_eq_getElem?_getD, Nat.mul_comm, stores_at hX hy ha hc]; rfl
  cases Wt with
  | none =>
    refine ⟨_, if_pos hlen, stores_block _ hN ?_⟩
    intro y hy a ha c hc
    have hw : w y = 1 := hW y hy
    unfold homogeneous
    by_cases h : c < nsd
    · rw [if_pos h, if_pos h, getX y hy a ha c h, hw]; simp
    · rw [if_neg h, if_neg h, hw]
  | some wl =>
    have hW : Stores start width 1 wl fun y _ => w y := hW
    have hlw : N ≤ wl.length := by
      have := hW.length
      rw [← hN] at this
      have : wl.length = N := by exact_mod_cast (by simpa using this)
      omega
    have getW : ∀ y, InBlock start width y → ∀ a : Nat, flat width (rel start y) = a → wl.getD a 0 = w y := by
      intro y hy a ha
      have := stores_at hW hy ha (c := 0) (by omega)
      rw [Nat.zero_add, Nat.one_mul] at this
      rw [List.getD_eq_getElem?_getD, this]; rfl
    refine ⟨_, if_pos ⟨hlen, hlw⟩, stores_block _ hN ?_⟩
    intro y hy a ha c hc
    dsimp only
    unfold homogeneous
    rw [getW y hy a ha]
    by_cases h : c < nsd
    · rw [if_pos h, if_pos h, getX y hy a ha c h]
    · rw [if_neg h, if_neg h]

theorem geoCount_eq (L : Layout K) (h : 0 ≤ prod (L.dir.map Dir.geomGwidth)) :
    ((SetUp.geoCount L : Nat) : Int) = prod (L.dir.map Dir.geomGwidth) := by
  unfold SetUp.geoCount
  have : ∀ (l : List Dir) (a : Int), l.foldl (fun a (d : Dir) => a * d.geomGwidth) a = a * prod (l.map Dir.geomGwidth) := by
    intro l
    induction l with
    | nil => intro a; simp [prod]
    | cons d l ih => intro a; rw [List.foldl_cons, ih, List.map_cons]; show _ = a * (_ * _); ring
  rw [this, one_mul]
  omega

theorem prod_nonneg' : ∀ {ws : List Int}, (∀ w ∈ ws, 0 ≤ w) → 0 ≤ prod ws
  | [], _ => by decide
  | w :: ws, h => Int.mul_nonneg (h w (by simp)) (prod_nonneg' fun w hw => h w (by simp [hw]))

/-- The arrays of one process hold the control points `coord` and the weights `w` of its part of the net. -/
structure HasGeometry (nsd : Nat) (coord : List Int → Nat → K) (w : List Int → K) (q : Piece K) : Prop where
  points : ∃ X, q.2.X = some X ∧ Stores (q.1.dir.map Dir.geomGstart) (q.1.dir.map Dir.geomGwidth) nsd X coord
  weights : StoresWeights (q.1.dir.map Dir.geomGstart) (q.1.dir.map Dir.geomGwidth) q.2.W w

variable {Gs : List Int}

theorem piece_count {Ls : List (Layout K)} (H : IOGrid Gs (ioWorld Ls)) {r : Nat} {L : Layout K} (h : Ls[r]? = some L) :
    ((SetUp.geoCount L : Nat) : Int) = prod (L.dir.map Dir.geomGwidth) := by
  apply geoCount_eq
  apply prod_nonneg'
  have := H.wid r (by rw [ioWorld_length]; exact (List.getElem?_eq_some_iff.1 h).1)
  rwa [(ioWorld_gho h).2] at this

theorem fst_get {ps : List (Piece K)} {r : Nat} {q : Piece K} (h : ps[r]? = some q) : (ps.map Prod.fst)[r]? = some q.1 := by
  rw [List.getElem?_map, h]; rfl

/-- A family of local arrays seen as local vectors. -/
theorem localOf_ok {ps : List (Piece K)} {bs : Nat} {loc : List (List K)} {f : List Int → Nat → K}
    (h : List.Forall₂ (fun (q : Piece K) l => Stores (q.1.dir.map Dir.geomGstart) (q.1.dir.map Dir.geomGwidth) bs l f) ps loc) :
    ∀ r x c, r < (ioWorld (ps.map Prod.fst)).length →
      InBlock (ghoStart (ioWorld (ps.map Prod.fst)) r) (ghoWidth (ioWorld (ps.map Prod.fst)) r) x → c < bs →
      localOf loc (r, (bs:Int) * flat (ghoWidth (ioWorld (ps.map Prod.fst)) r) (rel (ghoStart (ioWorld (ps.map Prod.fst)) r) x) + (c:Nat)) = f x c := by
  intro r x c hr hx hc
  rw [ioWorld_length, List.length_map] at hr
  have hq : ps[r]? = some ps[r] := by simp [hr]
  obtain ⟨e1, e2⟩ := ioWorld_gho (fst_get hq)
  rw [e1, e2] at hx ⊢
  have hr' : r < loc.length := by rw [← h.length_eq]; exact hr
  have S := (List.forall₂_iff_get.1 h).2 r hr hr'
  simp only [List.get_eq_getElem] at S
  obtain ⟨a, ha, -⟩ := index_nat hx
  unfold localOf
  rw [ha]
  dsimp only
  rw [List.getElem?_eq_getElem hr', Option.getD_some, index_eq,
    List.getD_eq_getElem?_getD, stores_at S hx ha hc]
  rfl

/-- Saving a geometry writes the homogeneous coordinates of all control points, in an order that does not depend on the
number of processes. -/
theorem saveGeometry_ok {ps : List (Piece K)} (H : IOGrid Gs (ioWorld (ps.map Prod.fst))) (skip : Bool) (mem : Int → K)
    {nsd : Nat} (hn : 1 ≤ nsd) {coord : List Int → Nat → K} {w : List Int → K} (hg : ∀ q ∈ ps, HasGeometry nsd coord w q) :
    ∃ v, saveGeometry skip mem nsd ps = .ok (vecView skip (((nsd+1:Nat):Int) * prod Gs).toNat v) ∧
      ∀ x c, InBox Gs x → c < nsd+1 → v (((nsd+1:Nat):Int) * flat Gs x + (c:Nat)) = homogeneous nsd coord w x c := by
  have hloc : ∃ loc, mapRes (localHomog nsd) ps = .ok loc ∧ List.Forall₂ (fun (q : Piece K) l =>
        Stores (q.1.dir.map Dir.geomGstart) (q.1.dir.map Dir.geomGwidth) (nsd+1) l (homogeneous nsd coord w)) ps loc := by
    apply mapRes_ok
    intro q hq
    obtain ⟨r, hr⟩ := List.getElem?_of_mem hq
    obtain ⟨X, hX, hs⟩ := (hg q hq).points
    obtain ⟨loc, h1, h2⟩ := homog_ok (piece_count H (fst_get hr)) hs (hg q hq).weights
    refine ⟨loc, ?_, h2⟩
    unfold localHomog
    rw [hX]
    dsimp only
    rw [if_neg (by omega), h1]
  obtain ⟨loc, e, hF⟩ := hloc
  obtain ⟨v, h1, h2⟩ := put_ok H skip mem (nsd+1) (localOf loc) (homogeneous nsd coord w) (localOf_ok hF)
  refine ⟨v, ?_, h2⟩
  unfold saveGeometry
  rw [e]
  show put _ _ _ _ _ = _
  rw [h1, vecSize_eq H]

theorem foldl_max_le {α : Type} (g : α → K) (b : K) : ∀ (l : List α) (a : K), l.foldl (fun m x => max m (g x)) a ≤ b ↔
    a ≤ b ∧ ∀ x ∈ l, g x ≤ b
  | [], a => by simp
  | x :: l, a => by rw [List.foldl_cons, foldl_max_le g b l]; simp [and_assoc]

theorem foldl_max_mem {α : Type} (g : α → K) : ∀ (l : List α) (a : K), l.foldl (fun m x => max m (g x)) a = a ∨
    ∃ x ∈ l, l.foldl (fun m x => max m (g x)) a = g x
  | [], a => by simp
  | x :: l, a => by
    rw [List.foldl_cons]
    rcases foldl_max_mem g l (max a (g x)) with h | ⟨y, hy, h⟩
    · rw [h]
      rcases max_choice a (g x) with h' | h'
      · left; exact h'
      · right; exact ⟨x, by simp, h'⟩
    · right; exact ⟨y, by simp [hy], h⟩

theorem foldl_min_mem {α : Type} (g : α → K) : ∀ (l : List α) (a : K), l.foldl (fun m x => min m (g x)) a = a ∨
    ∃ x ∈ l, l.foldl (fun m x => min m (g x)) a = g x
  | [], a => by simp
  | x :: l, a => by
    rw [List.foldl_cons]
    rcases foldl_min_mem g l (min a (g x)) with h | ⟨y, hy, h⟩
    · rw [h]
      rcases min_choice a (g x) with h' | h'
      · left; exact h'
      · right; exact ⟨x, by simp, h'⟩
    · right; exact ⟨y, by simp [hy], h⟩

theorem le_foldl_min {α : Type} (g : α → K) (b : K) : ∀ (l : List α) (a : K), b ≤ l.foldl (fun m x => min m (g x)) a ↔
    b ≤ a ∧ ∀ x ∈ l, b ≤ g x
  | [], a => by simp
  | x :: l, a => by rw [List.foldl_cons, le_foldl_min g b l]; simp [and_assoc]

/-- The largest minus the smallest of the entries exceeds `t` iff two entries differ by more than `t`. -/
theorem stride_spread (N bs start : Nat) (hN : 1 ≤ N) (v : Int → K) (t : K) :
    strideMax N bs start v - strideMin N bs start v > t ↔
      ∃ j k : Nat, j < N ∧ k < N ∧ v ((bs:Int) * j + start) - v ((bs:Int) * k + start) > t := by
  have e0 : v start = v ((bs:Int) * ((0:Nat):Int) + start) := by simp
  have hmax : ∃ j : Nat, j < N ∧ strideMax N bs start v = v ((bs:Int) * j + start) := by
    unfold strideMax
    rcases foldl_max_mem (fun k : Nat => v ((bs:Int) * k + start)) (List.range N) (v start) with h | ⟨j, hj, h⟩
    · exact ⟨0, hN, by rw [h, e0]⟩
    · exact ⟨j, List.mem_range.1 hj, h⟩
  have hmin : ∃ j : Nat, j < N ∧ strideMin N bs start v = v ((bs:Int) * j + start) := by
    unfold strideMin
    rcases foldl_min_mem (fun k : Nat => v ((bs:Int) * k + start)) (List.range N) (v start) with h | ⟨j, hj, h⟩
    · exact ⟨0, hN, by rw [h, e0]⟩
    · exact ⟨j, List.mem_range.1 hj, h⟩
  constructor
  · intro h
    obtain ⟨j, hj, e1⟩ := hmax
    obtain ⟨k, hk, e2⟩ := hmin
    rw [e1, e2] at h
    exact ⟨j, k, hj, hk, h⟩
  · rintro ⟨j, k, hj, hk, h⟩
    have a := ((foldl_max_le (fun k : Nat => v ((bs:Int) * k + start)) _ (List.range N) (v start)).1 le_rfl).2 j (List.mem_range.2 hj)
    have b := ((le_foldl_min (fun k : Nat => v ((bs:Int) * k + start)) _ (List.range N) (v start)).1 le_rfl).2 k (List.mem_range.2 hk)
    unfold strideMax strideMin
    have : v ((bs:Int) * j + start) - v ((bs:Int) * k + start) ≤ _ := sub_le_sub a b
    exact lt_of_lt_of_le h this

/-- Loading a geometry from a file with the homogeneous coordinates of a control net. -/
theorem loadGeometry_ok {ps : List (Piece K)} (H : IOGrid Gs (ioWorld (ps.map Prod.fst))) (skip : Bool) (mem : Int → K) (tol : K)
    {nsd : Nat} (hn : 1 ≤ nsd) {coord : List Int → Nat → K} {w : List Int → K} {v : Int → K}
    (hv : ∀ x c, InBox Gs x → c < nsd+1 → v (((nsd+1:Nat):Int) * flat Gs x + (c:Nat)) = homogeneous nsd coord w x c)
    (rest : File K) :
    ∃ ps', loadGeometry skip mem tol nsd ps (vecView skip (((nsd+1:Nat):Int) * prod Gs).toNat v ++ rest) = .ok (ps', rest) ∧
      List.Forall₂ (fun q q' => q'.1 = q.1 ∧ HasGeometry nsd coord w q' ∧
        (q'.2.rational = true ↔ ∃ x y, InBox Gs x ∧ InBox Gs y ∧ w x - w y > tol) ∧
        q'.2.nsd = q.2.nsd ∧ q'.2.npd = q.2.npd ∧ q'.2.A = q.2.A ∧ q'.2.W ≠ none) ps ps' := by
  obtain ⟨gvec, lvec, e, hg, hl⟩ := get_ok H skip mem (nsd+1) v rest
  rw [vecSize_eq H] at e
  unfold loadGeometry
  rw [if_neg (by omega)]
  dsimp only
  rw [e]
  refine ⟨_, rfl, ?_⟩
  rw [List.forall₂_iff_get]
  refine ⟨by simp, ?_⟩
  intro r h1 h2
  simp only [List.get_eq_getElem, List.getElem_map, List.getElem_zipIdx, Nat.zero_add]
  have hq : ps[r]? = some ps[r] := by simp [h1]
  have hc := piece_count H (fst_get hq)
  obtain ⟨g1, g2⟩ := ioWorld_gho (fst_get hq)
  have hr : r < (ioWorld (ps.map Prod.fst)).length := by rw [ioWorld_length, List.length_map]; exact h1
  have val : ∀ y, InBlock (ps[r].1.dir.map Dir.geomGstart) (ps[r].1.dir.map Dir.geomGwidth) y → ∀ a : Nat,
      flat (ps[r].1.dir.map Dir.geomGwidth) (rel (ps[r].1.dir.map Dir.geomGstart) y) = a → ∀ c, c < nsd+1 →
      lvec (r, ((nsd+1:Nat):Int) * (a:Int) + c) = homogeneous nsd coord w y c := by
    intro y hy a ha c hc
    rw [← g1, ← g2] at hy ha
    have := hl r y c hr hy hc
    rw [ha] at this
    rw [this, hv y c (H.inside r y hr hy) hc]
  have wlast : ∀ y, homogeneous nsd coord w y nsd = w y := fun y => if_neg (by omega)
  refine ⟨trivial, ⟨⟨_, rfl, ?_⟩, ?_⟩, ?_, trivial, trivial, trivial, by simp⟩
  · unfold dehomogX
    apply stores_block _ hc
    intro y hy a ha c hc'
    dsimp only
    rw [val y hy a ha nsd (by omega), val y hy a ha c (by omega), wlast]
    unfold homogeneous
    rw [if_pos hc']
    by_cases hw : |w y| > 0
    · rw [if_pos hw, if_pos hw, mul_div_assoc, div_self (abs_pos.1 hw), mul_one]
    · rw [if_neg hw, if_neg hw, mul_one]
  · show Stores _ _ 1 _ _
    unfold dehomogW
    have : ∀ (N : Nat) (g : Nat → K), (List.range N).map g = (List.range N).flatMap fun a => (List.range 1).map fun _ => g a := by
      intro N g
      simp only [List.range_one, List.map_cons, List.map_nil]
      induction List.range N with
      | nil => rfl
      | cons a l ih => rw [List.map_cons, ih, List.flatMap_cons]; rfl
    rw [this]
    apply stores_block _ hc
    intro y hy a ha c hc'
    dsimp only
    rw [val y hy a ha nsd (by omega), wlast]
  · rw [decide_eq_true_iff, vecSize_eq H]
    have hP := prod_nonneg H
    rw [stride_spread _ _ _ (by omega)]
    obtain ⟨n1, n2, n3, -⟩ := C26_global_numbering Gs _ H.D H.pos
    have gw : ∀ x, InBox Gs x → gvec (((nsd+1:Nat):Int) * appToPetsc (ioWorld (ps.map Prod.fst)) (flat Gs x) + nsd) = w x := by
      intro x hx
      rw [hg x nsd hx (by omega), hv x nsd hx (by omega), wlast]
    constructor
    · rintro ⟨j, k, hj, hk, h⟩
      obtain ⟨x, hx, ex⟩ := n3 j (by omega) (by omega)
      obtain ⟨y, hy, ey⟩ := n3 k (by omega) (by omega)
      refine ⟨x, y, hx, hy, ?_⟩
      rw [← ex, ← ey, gw x hx, gw y hy] at h
      exact h
    · rintro ⟨x, y, hx, hy, h⟩
      have a := n1 x hx
      have b := n1 y hy
      refine ⟨(appToPetsc (ioWorld (ps.map Prod.fst)) (flat Gs x)).toNat, (appToPetsc (ioWorld (ps.map Prod.fst)) (flat Gs y)).toNat,
        by omega, by omega, ?_⟩
      rw [show (((appToPetsc (ioWorld (ps.map Prod.fst)) (flat Gs x)).toNat : Nat) : Int) = _ from Int.toNat_of_nonneg a.1,
        show (((appToPetsc (ioWorld (ps.map Prod.fst)) (flat Gs y)).toNat : Nat) : Int) = _ from Int.toNat_of_nonneg b.1, gw x hx, gw y hy]
      exact h

/-- The array of one process holds the properties `prop` of its part of the net. -/
def HasProperty (npd : Nat) (prop : List Int → Nat → K) (q : Piece K) : Prop :=
  ∃ A, q.2.A = some A ∧ Stores (q.1.dir.map Dir.geomGstart) (q.1.dir.map Dir.geomGwidth) npd A prop

theorem saveProperty_ok {ps : List (Piece K)} (H : IOGrid Gs (ioWorld (ps.map Prod.fst))) (skip : Bool) (mem : Int → K)
    {npd : Nat} (hn : 1 ≤ npd) {prop : List Int → Nat → K} (hg : ∀ q ∈ ps, HasProperty npd prop q) :
    ∃ v, saveProperty skip mem npd ps = .ok (vecView skip ((npd:Int) * prod Gs).toNat v) ∧
      ∀ x c, InBox Gs x → c < npd → v ((npd:Int) * flat Gs x + (c:Nat)) = prop x c := by
  have hloc : ∃ loc, mapRes (localProp npd) ps = .ok loc ∧ List.Forall₂ (fun (q : Piece K) l =>
        Stores (q.1.dir.map Dir.geomGstart) (q.1.dir.map Dir.geomGwidth) npd l prop) ps loc := by
    apply mapRes_ok
    intro q hq
    obtain ⟨r, hr⟩ := List.getElem?_of_mem hq
    obtain ⟨A, hA, hs⟩ := hg q hq
    have hl : A.length = SetUp.geoCount q.1 * npd := by
      have := hs.length
      rw [← piece_count H (fst_get hr)] at this
      have : A.length = npd * SetUp.geoCount q.1 := by exact_mod_cast this
      rw [this, Nat.mul_comm]
    refine ⟨A, ?_, hs⟩
    unfold localProp
    rw [if_neg (by omega), hA]
    dsimp only
    unfold SetUp.copyN
    rw [if_pos (by omega), ← hl, List.take_length]
  obtain ⟨loc, e, hF⟩ := hloc
  obtain ⟨v, h1, h2⟩ := put_ok H skip mem npd (localOf loc) prop (localOf_ok hF)
  refine ⟨v, ?_, h2⟩
  unfold saveProperty
  rw [e]
  show put _ _ _ _ _ = _
  rw [h1, vecSize_eq H]

theorem loadProperty_ok {ps : List (Piece K)} (H : IOGrid Gs (ioWorld (ps.map Prod.fst))) (skip : Bool) (mem : Int → K)
    {npd : Nat} (hn : 1 ≤ npd) {prop : List Int → Nat → K} {v : Int → K}
    (hv : ∀ x c, InBox Gs x → c < npd → v ((npd:Int) * flat Gs x + (c:Nat)) = prop x c) (rest : File K) :
    ∃ ps', loadProperty skip mem npd ps (vecView skip ((npd:Int) * prod Gs).toNat v ++ rest) = .ok (ps', rest) ∧
      List.Forall₂ (fun q q' => q'.1 = q.1 ∧ HasProperty npd prop q' ∧ q'.2 = { q.2 with A := q'.2.A }) ps ps' := by
  obtain ⟨gvec, lvec, e, hg, hl⟩ := get_ok H skip mem npd v rest
  rw [vecSize_eq H] at e
  unfold loadProperty
  rw [if_neg (by omega), e]
  refine ⟨_, rfl, ?_⟩
  rw [List.forall₂_iff_get]
  refine ⟨by simp, ?_⟩
  intro r h1 h2
  simp only [List.get_eq_getElem, List.getElem_map, List.getElem_zipIdx, Nat.zero_add]
  have hq : ps[r]? = some ps[r] := by simp [h1]
  have hc := piece_count H (fst_get hq)
  obtain ⟨g1, g2⟩ := ioWorld_gho (fst_get hq)
  have hr : r < (ioWorld (ps.map Prod.fst)).length := by rw [ioWorld_length, List.length_map]; exact h1
  refine ⟨trivial, ⟨_, rfl, ⟨?_, ?_⟩⟩, trivial⟩
  · rw [List.length_map, List.length_range]; push_cast; rw [hc, mul_comm]
  · intro y hy c hc'
    obtain ⟨a, ha, hlt⟩ := index_nat hy
    dsimp only at hlt hy ha ⊢
    have hlt' : a < SetUp.geoCount ps[r].1 := by omega
    rw [ha, index_eq, List.getElem?_map, List.getElem?_range (by
      calc c + npd * a < npd + npd * a := by omega
        _ = (a+1) * npd := by ring
        _ ≤ _ := Nat.mul_le_mul_right _ hlt'), Option.map_some]
    rw [← g1, ← g2] at hy ha
    have := hl r y c hr hy hc'
    rw [ha] at this
    rw [show ((c + npd * a : Nat) : Int) = (npd:Int) * (a:Int) + (c:Int) by push_cast; ring, this, hv y c (H.inside r y hr hy) hc']

/-- The numbers of a file with a net do not depend on how the array was obtained. -/
theorem vecView_congr {bs : Nat} {v v' : Int → K} (hG : ∀ g ∈ Gs, 1 ≤ g) (skip : Bool)
    (h : ∀ x c, InBox Gs x → c < bs → v ((bs:Int) * flat Gs x + (c:Nat)) = v' ((bs:Int) * flat Gs x + (c:Nat))) :
    vecView skip ((bs:Int) * prod Gs).toNat v = vecView skip ((bs:Int) * prod Gs).toNat v' := by
  unfold vecView
  congr 1
  apply List.map_congr_left
  intro k hk
  have hk := List.mem_range.1 hk
  have hP := prod_nonneg' fun g hg => (by have := hG g hg; omega : (0:Int) ≤ g)
  by_cases hb : bs = 0
  · subst hb; simp at hk
  have hk' : (k:Int) < (bs:Int) * prod Gs := by omega
  have hd : (k / bs : Nat) < (prod Gs).toNat := by
    rw [Nat.div_lt_iff_lt_mul (by omega)]
    have : ((prod Gs).toNat : Int) * bs = (bs:Int) * prod Gs := by rw [Int.toNat_of_nonneg hP, mul_comm]
    omega
  obtain ⟨x, hx, e⟩ := flat_surj hG (k := ((k / bs : Nat) : Int)) (Int.natCast_nonneg _) (by rw [Int.lt_toNat.symm]; exact hd)
  have := h x (k % bs) hx (Nat.mod_lt _ (by omega))
  rw [e, show (bs:Int) * ((k / bs : Nat) : Int) + ((k % bs : Nat) : Int) = (k:Int) by exact_mod_cast Nat.div_add_mod k bs] at this
  rw [this]

end PetIGA.IO
