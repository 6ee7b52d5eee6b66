import Verif.Model.Plot
import Verif.Props.Draw
/-! Property theorems about the picture of the parametric domain drawn by `IGADraw` (C109). -/
set_option linter.unusedSectionVars false
namespace PetIGA.Plt
open PetIGA.Spec PetIGA.Part PetIGA.Lay PetIGA.Ax PetIGA.Grid PetIGA.Asm PetIGA.Prb PetIGA.Quad PetIGA.Dmda

variable {K V : Type} [Field K] [LinearOrder K] [IsStrictOrderedRing K]

/-! ### Specification -/

/-- The rectangles in a drawing. -/
def rects (l : List (Item K)) : List (K × K × K × K × Bool) :=
  l.filterMap fun | .rect x0 y0 x1 y1 w => some (x0, y0, x1, y1, w) | _ => none

/-- The lines in a drawing. -/
def linesIn (l : List (Item K)) : List (K × K × K × K) :=
  l.filterMap fun | .line x0 y0 x1 y1 => some (x0, y0, x1, y1) | _ => none

/-- The points in a drawing. -/
def pointsIn (l : List (Item K)) : List (K × K) :=
  l.filterMap fun | .point x y => some (x, y) | _ => none

/-- A point lies in a rectangle (closed on the left and below, so that neighbours share no point). -/
def Covers (R : K × K × K × K × Bool) (x y : K) : Prop :=
  R.1 ≤ x ∧ x < R.2.2.1 ∧ R.2.1 ≤ y ∧ y < R.2.2.2.1

theorem okb {α β : Type} (a : α) (f : α → Res β) : (Res.ok a).bind f = f a := rfl

/-! ### Cutting an interval -/

theorem cells_unique {P : Int} {c : Int → K} (mono : ∀ r, 0 ≤ r → r < P → c r ≤ c (r+1)) {x : K}
    (h0 : c 0 ≤ x) (h1 : x < c P) (hP : 1 ≤ P) :
    ∃ r, (0 ≤ r ∧ r < P ∧ c r ≤ x ∧ x < c (r+1)) ∧ ∀ r', 0 ≤ r' → r' < P → c r' ≤ x → x < c (r'+1) → r' = r := by
  have mono' : ∀ (d : Nat) (a : Int), 0 ≤ a → a + d ≤ P → c a ≤ c (a+d) := by
    intro d
    induction d with
    | zero => intro a _ _; simp
    | succ d ih =>
      intro a ha hd
      push_cast at hd ⊢
      refine le_trans (ih a ha (by omega)) ?_
      rw [← add_assoc]
      exact mono _ (by omega) (by omega)
  have mono2 : ∀ a b, 0 ≤ a → a ≤ b → b ≤ P → c a ≤ c b := by
    intro a b ha hab hb
    have := mono' (b - a).toNat a ha (by omega)
    rwa [show a + ((b-a).toNat : Int) = b by omega] at this
  have ex : ∀ n : Nat, (n:Int) ≤ P → x < c n → ∃ r, 0 ≤ r ∧ r < P ∧ c r ≤ x ∧ x < c (r+1) := by
    intro n
    induction n with
    | zero => intro _ h; exact absurd h (not_lt_of_ge (by simpa using h0))
    | succ n ih =>
      intro hn h
      push_cast at hn h
      by_cases hc : c n ≤ x
      · exact ⟨n, by omega, by omega, hc, h⟩
      · exact ih (by omega) (not_le.1 hc)
  obtain ⟨r, a, b, e, f⟩ := ex P.toNat (by omega) (by rwa [Int.toNat_of_nonneg (by omega)])
  refine ⟨r, ⟨a, b, e, f⟩, ?_⟩
  intro r' a' b' e' f'
  rcases lt_trichotomy r' r with h | h | h
  · exact absurd (lt_of_lt_of_le f' (mono2 (r'+1) r (by omega) (by omega) (by omega))) (not_lt_of_ge e)
  · exact h
  · exact absurd (lt_of_lt_of_le f (mono2 (r+1) r' (by omega) (by omega) (by omega))) (not_lt_of_ge e')

/-- Where the block of process coordinate `r` starts, and the end for `r = P`. -/
def edge (P N : Int) (start : Int → Int) (r : Int) : Int := if r < P then start r else N

theorem edge_next {P N : Int} {start len : Int → Int} (T : Tiles P N start len) {r : Int} (h0 : 0 ≤ r) (h1 : r < P) :
    edge P N start r = start r ∧ edge P N start (r+1) = start r + len r := by
  unfold edge
  rw [if_pos h1]
  refine ⟨rfl, ?_⟩
  by_cases h : r + 1 < P
  · rw [if_pos h, T.next r h0 h]
  · rw [if_neg h]
    have := T.last
    have e : r = P - 1 := by omega
    rw [e]; omega

theorem edge_ends {P N : Int} {start len : Int → Int} (T : Tiles P N start len) (hP : 1 ≤ P) :
    edge P N start 0 = 0 ∧ edge P N start P = N := by
  unfold edge
  rw [if_pos (by omega), if_neg (by omega), T.first]
  exact ⟨rfl, rfl⟩

/-! ### Elements -/

/-- The knot at which element `i` starts, and the end of the domain for `i = nel`. -/
def knotOf (ax : Axis K) (i : Int) : K := if i < ax.nel then ax.U (sp ax i) else ax.U (ax.m - ax.p)

/-- Knots without element between them are equal. -/
theorem flat {ax : Axis K} (h : PreWF ax) {a b : Int} (ha : ax.p ≤ a) (hab : a ≤ b) (hb : b ≤ ax.m - ax.p)
    (hn : ∀ k, a ≤ k → k < b → ¬ IsElement ax.p ax.m ax.U k) : ax.U b = ax.U a := by
  have hp := h.legal.degree
  have key : ∀ d : Nat, a + d ≤ b → ax.U (a+d) = ax.U a := by
    intro d
    induction d with
    | zero => intro _; simp
    | succ d ih =>
      intro hd
      push_cast at hd ⊢
      rw [← ih (by omega), ← add_assoc]
      by_contra hne
      have hs := h.legal.sorted (a + d) (by omega) (by omega)
      exact hn (a+d) (by omega) (by omega) ⟨by omega, by omega, lt_of_le_of_ne hs (Ne.symm hne)⟩
  have := key (b-a).toNat (by omega)
  rwa [show a + ((b-a).toNat : Int) = b by omega] at this

theorem knotOf_end {ax : Axis K} (h : PreWF ax) {i : Int} (h0 : 0 ≤ i) (h1 : i < ax.nel) :
    ax.U (sp ax i + 1) = knotOf ax (i+1) := by
  obtain ⟨a1, a2, a3⟩ := sp_elem h h0 h1
  unfold knotOf
  split_ifs with hc
  · obtain ⟨b1, b2, b3⟩ := sp_elem h (i := i+1) (by omega) hc
    have hlt := sp_lt h h0 (show i < i+1 by omega) hc
    refine (flat h (by omega) (by omega) (by omega) ?_).symm
    intro k k1 k2 hk
    obtain ⟨j, j0, j1, e⟩ := mem_sp h hk
    rcases lt_trichotomy j (i+1) with hj | hj | hj
    · have := sp_le h j0 (show j ≤ i by omega) h1; omega
    · subst hj; omega
    · have := sp_lt h (show 0 ≤ i+1 by omega) hj j1; omega
  · refine (flat h (by omega) (by omega) (le_refl _) ?_).symm
    intro k k1 k2 hk
    obtain ⟨j, j0, j1, e⟩ := mem_sp h hk
    have := sp_le h j0 (show j ≤ i by omega) h1; omega

theorem knotOf_first {ax : Axis K} (h : PreWF ax) (hn : 1 ≤ ax.nel) : knotOf ax 0 = ax.U ax.p := by
  obtain ⟨a1, a2, a3⟩ := sp_elem h (i := 0) (by omega) (by omega)
  unfold knotOf
  rw [if_pos (by omega)]
  refine flat h (le_refl _) a1 (by omega) ?_
  intro k k1 k2 hk
  obtain ⟨j, j0, j1, e⟩ := mem_sp h hk
  have := sp_le h (le_refl 0) j0 j1; omega

theorem knotOf_lt {ax : Axis K} (h : PreWF ax) {i j : Int} (h0 : 0 ≤ i) (hij : i < j) (hj : j ≤ ax.nel) :
    knotOf ax i < knotOf ax j := by
  have step : ∀ i, 0 ≤ i → i < ax.nel → knotOf ax i < knotOf ax (i+1) := by
    intro i a b
    rw [← knotOf_end h a b]
    unfold knotOf
    rw [if_pos b]
    exact (sp_elem h a b).2.2
  have key : ∀ d : Nat, i + 1 + d ≤ ax.nel → knotOf ax i < knotOf ax (i+1+d) := by
    intro d
    induction d with
    | zero => intro hd; simpa using step i h0 (by omega)
    | succ d ih =>
      intro hd
      push_cast at hd ⊢
      refine lt_trans (ih (by omega)) ?_
      have := step (i+1+d) (by omega) (by omega)
      rwa [← add_assoc]
  have := key (j - (i+1)).toNat (by omega)
  rwa [show i + 1 + ((j-(i+1)).toNat : Int) = j by omega] at this

theorem knotOf_le_iff {ax : Axis K} (h : PreWF ax) {i j : Int} (h0 : 0 ≤ i) (hi : i ≤ ax.nel) (h0' : 0 ≤ j) (hj : j ≤ ax.nel) :
    knotOf ax i ≤ knotOf ax j ↔ i ≤ j := by
  constructor
  · intro hle
    by_contra hc
    exact absurd (knotOf_lt h h0' (show j < i by omega) hi) (not_lt_of_ge hle)
  · intro hle
    rcases Int.lt_or_eq_of_le hle with hlt | heq
    · exact (knotOf_lt h h0 hlt hj).le
    · rw [heq]

/-! ### Collocation points -/

theorem grev_mono {ax : Axis K} (h : PreWF ax) {i j : Int} (h0 : 0 ≤ i) (hij : i ≤ j) (hj : j < ax.m - ax.p) :
    greville i ax.p ax.U ≤ greville j ax.p ax.U := by
  have hp := h.legal.degree
  have hs := h.legal.sorted
  have key : ∀ n : Nat, (n:Int) ≤ ax.p → grevSum i ax.U n ≤ grevSum j ax.U n := by
    intro n
    induction n with
    | zero => intro _; exact le_refl _
    | succ n ih =>
      intro hn
      push_cast at hn
      unfold grevSum
      exact add_le_add (ih (by omega)) (sorted_mono hs (by omega) (by omega) (by omega))
  unfold greville
  rw [if_pos (by omega), if_pos (by omega)]
  have hp' : (0:K) < (ax.p : K) := by exact_mod_cast (by omega : 0 < ax.p)
  rw [div_le_div_iff_of_pos_right hp']
  exact key _ (by omega)

/-- Where the range of the process that starts at point `i` of `n` starts. -/
def middle (n : Int) (g : Int → K) (i : Int) : K :=
  if i = 0 then g 0 else if i = n then g (n-1) else g i + (g (i-1) - g i) / 2

theorem middle_mono {n : Int} {g : Int → K} (hg : ∀ i j, 0 ≤ i → i ≤ j → j < n → g i ≤ g j) {i j : Int} (h0 : 0 ≤ i) (hij : i < j) (hj : j ≤ n) :
    middle n g i ≤ middle n g j := by
  have a : middle n g i ≤ g i := by
    unfold middle
    split_ifs with h1 h2
    · rw [h1]
    · omega
    · have := hg (i-1) i (by omega) (by omega) (by omega)
      linarith
  have b : g (j-1) ≤ middle n g j := by
    unfold middle
    split_ifs with h1 h2
    · omega
    · rw [h2]
    · have := hg (j-1) j (by omega) (by omega) (by omega)
      linarith
  exact le_trans a (le_trans (hg i (j-1) h0 (by omega) (by omega)) b)

theorem pointAt_map (g : Int → K) (n : Nat) {i : Int} (h0 : 0 ≤ i) (h1 : i < n) :
    pointAt ((List.range n).map fun (k : Nat) => g k) i = .ok (g i) := by
  unfold pointAt
  rw [if_neg (by omega), List.getElem?_map, List.getElem?_range (by omega)]
  simp [Res.ofOption, Int.toNat_of_nonneg h0]

theorem pointRange_ok {g : Int → K} {n : Nat} {d : Dir} (hn : d.nodeSize = n) (h0 : 0 ≤ d.nodeLstart) (h1 : 1 ≤ d.nodeLwidth)
    (h2 : d.nodeLstart + d.nodeLwidth ≤ n) :
    pointRange ((List.range n).map fun (k : Nat) => g k) d = .ok (middle n g d.nodeLstart, middle n g (d.nodeLstart + d.nodeLwidth)) := by
  unfold pointRange
  dsimp only
  rw [pointAt_map g n h0 (by omega), pointAt_map g n (by omega : 0 ≤ d.nodeLstart + d.nodeLwidth - 1) (by omega), hn]
  have e1 : (if d.nodeLstart > 0 then (pointAt ((List.range n).map fun (k : Nat) => g k) (d.nodeLstart - 1)).bind fun u =>
      Res.ok (g d.nodeLstart + (u - g d.nodeLstart) / 2) else Res.ok (g d.nodeLstart)) = .ok (middle n g d.nodeLstart) := by
    unfold middle
    by_cases h : d.nodeLstart > 0
    · rw [if_pos h, pointAt_map g n (by omega) (by omega), if_neg (by omega), if_neg (by omega)]; rfl
    · rw [if_neg h, if_pos (by omega)]
      rw [show d.nodeLstart = 0 by omega]
  have e2 : (if d.nodeLstart + d.nodeLwidth - 1 < (n:Int) - 1 then
      (pointAt ((List.range n).map fun (k : Nat) => g k) (d.nodeLstart + d.nodeLwidth - 1 + 1)).bind fun u =>
      Res.ok (g (d.nodeLstart + d.nodeLwidth - 1) + (u - g (d.nodeLstart + d.nodeLwidth - 1)) / 2) else
      Res.ok (g (d.nodeLstart + d.nodeLwidth - 1))) = .ok (middle n g (d.nodeLstart + d.nodeLwidth)) := by
    unfold middle
    by_cases h : d.nodeLstart + d.nodeLwidth - 1 < (n:Int) - 1
    · rw [if_pos h, pointAt_map g n (by omega) (by omega), if_neg (by omega), if_neg (by omega)]
      show Res.ok _ = _
      rw [show d.nodeLstart + d.nodeLwidth - 1 + 1 = d.nodeLstart + d.nodeLwidth by ring]
      congr 1; ring
    · rw [if_neg h, if_neg (by omega), if_pos (by omega), show (n:Int) - 1 = d.nodeLstart + d.nodeLwidth - 1 by omega]
  rw [okb, e1, okb, okb, e2, okb]

theorem collocElems_points {cb : Int → K → V} {ax : Axis K} {sh : Int} {l : List Nat} {es : List (Quad.Elem K V)}
    (h : collocElems cb ax sh l = .ok es) :
    (es.flatMap fun e => e.point) = l.map fun (k : Nat) => greville (k + sh) ax.p ax.U := by
  induction l generalizing es with
  | nil => simp only [collocElems, Res.ok.injEq] at h; subst h; rfl
  | cons k l ih =>
    simp only [collocElems] at h
    obtain ⟨s, -, h⟩ := Res.bind_eq_ok.1 h
    obtain ⟨es', h1, h2⟩ := Res.bind_eq_ok.1 h
    simp only [Res.ok.injEq] at h2
    subst h2
    rw [List.flatMap_cons, ih h1]; rfl

theorem colloc_points {cb : Int → K → V} {bt : BasisType} {ax : Axis K} {B : Basis K V} (h : initCollocation cb bt ax = .ok B) :
    pointsOf B = (List.range ax.nnp.toNat).map fun (k : Nat) => greville ((k:Int) + Int.tdiv (ax.m - ax.p - 1 + 1 - ax.nnp) 2) ax.p ax.U := by
  unfold initCollocation at h
  split_ifs at h
  obtain ⟨es, h1, h2⟩ := Res.bind_eq_ok.1 h
  simp only [Res.ok.injEq] at h2
  subst h2
  exact collocElems_points h1

/-! ### Lines -/

theorem lineLoop_ok {m last : Int} {U : Int → K} (hs : SortedKnots m U) (hl : last < m) : ∀ (f : Nat) (i : Int), 0 ≤ i → i ≤ m → m - i < f →
    ∃ l, lineLoop m last U f i = .ok l ∧ l.Pairwise (· < ·) ∧ ∀ x, x ∈ l ↔ ∃ k, i ≤ k ∧ k ≤ last ∧ x = U k := by
  intro f
  induction f with
  | zero => intro i h0 h1 h2; simp only [Nat.cast_zero] at h2; omega
  | succ f ih =>
    intro i h0 h1 h2
    unfold lineLoop
    by_cases hc : i ≤ last
    · rw [if_pos hc]
      obtain ⟨a, b, c, d⟩ := nextKnot_fwd U h0 (show i < m by omega)
      obtain ⟨l, e, pw, mem⟩ := ih (nextKnot m U i 1) (by omega) b (by push_cast at h2; omega)
      rw [e, okb]
      refine ⟨_, rfl, ?_, ?_⟩
      · rw [List.pairwise_cons]
        refine ⟨?_, pw⟩
        intro x hx
        obtain ⟨k, k1, k2, rfl⟩ := (mem x).1 hx
        exact lt_of_lt_of_le (d (by omega)) (sorted_mono hs (by omega) k1 (by omega))
      · intro x
        rw [List.mem_cons, mem]
        constructor
        · rintro (rfl | ⟨k, k1, k2, rfl⟩)
          · exact ⟨i, le_refl _, hc, rfl⟩
          · exact ⟨k, by omega, k2, rfl⟩
        · rintro ⟨k, k1, k2, rfl⟩
          by_cases hk : nextKnot m U i 1 ≤ k
          · exact Or.inr ⟨k, hk, k2, rfl⟩
          · exact Or.inl (nextKnot_run hs h0 (by omega) k1 (by omega))
    · rw [if_neg hc]
      refine ⟨[], rfl, List.Pairwise.nil, ?_⟩
      intro x
      simp only [List.not_mem_nil, false_iff]
      rintro ⟨k, k1, k2, -⟩
      omega

theorem lineKnots_ok {ax : Axis K} (h : PreWF ax) :
    ∃ l, lineKnots ax = .ok l ∧ l.Pairwise (· < ·) ∧ ∀ x, x ∈ l ↔ ∃ k, ax.p ≤ k ∧ k ≤ ax.m - ax.p ∧ x = ax.U k := by
  have := h.legal.degree; have := h.legal.enough
  exact lineLoop_ok h.legal.sorted (by omega) _ _ (by omega) (by omega) (by omega)

/-! ### One process -/

theorem filterMap_none {α β : Type} {f : α → Option β} {l : List α} (h : ∀ a ∈ l, f a = none) : l.filterMap f = [] := by
  induction l with
  | nil => rfl
  | cons a l ih => rw [List.filterMap_cons, h a (by simp)]; exact ih fun b hb => h b (by simp [hb])

/-- What a process draws, given its ranges. -/
theorem draw_ok (frac : K) (colloc : Bool) (size rank : Int) {ax bx : Axis K} (ha : PreWF ax) (hb : PreWF bx) (Ps : List Int) (i j : Int) (d e : Dir)
    (A B : Basis K V) (rx ry : K × K)
    (hx : (if colloc then pointRange (pointsOf A) d else knotRange ax d) = .ok rx)
    (hy : (if colloc then pointRange (pointsOf B) e else knotRange bx e) = .ok ry) :
    ∃ items us vs, draw frac colloc size rank ⟨[ax, bx], Ps, [i, j], [d, e]⟩ [A, B] = .ok items ∧ lineKnots ax = .ok us ∧ lineKnots bx = .ok vs ∧
      rects items = (if size > 1 then [(rx.1, ry.1, rx.2, ry.2, decide (Int.tmod (i + j) 2 = 1))] else []) ∧
      linesIn items = (if rank = 0 then us.map (fun u => (u, bx.U bx.p, u, bx.U (bx.m - bx.p))) ++
        vs.map (fun v => (ax.U ax.p, v, ax.U (ax.m - ax.p), v)) else []) ∧
      pointsIn items = (if rank = 0 then (drawn A).flatMap fun u => (drawn B).map fun v => (u, v) else []) := by
  obtain ⟨us, eu, -⟩ := lineKnots_ok ha
  obtain ⟨vs, ev, -⟩ := lineKnots_ok hb
  have l1 : ∀ (l : List K) (f : K → Item K), (∀ u, ∃ a b c d, f u = .line a b c d) → rects (l.map f) = [] ∧ pointsIn (l.map f) = [] := by
    intro l f h
    constructor
    · refine filterMap_none ?_
      intro a ha'
      obtain ⟨u, -, rfl⟩ := List.mem_map.1 ha'
      obtain ⟨_, _, _, _, e⟩ := h u
      rw [e]
    · refine filterMap_none ?_
      intro a ha'
      obtain ⟨u, -, rfl⟩ := List.mem_map.1 ha'
      obtain ⟨_, _, _, _, e⟩ := h u
      rw [e]
  have l2 : ∀ (l l' : List K), rects (l.flatMap fun u => l'.map fun v => Item.point u v) = [] ∧
      linesIn (l.flatMap fun u => l'.map fun v => Item.point u v) = [] ∧
      pointsIn (l.flatMap fun u => l'.map fun v => Item.point u v) = l.flatMap fun u => l'.map fun v => (u, v) := by
    intro l l'
    refine ⟨?_, ?_, ?_⟩
    · refine filterMap_none ?_
      intro a ha'
      obtain ⟨u, -, ha'⟩ := List.mem_flatMap.1 ha'
      obtain ⟨v, -, rfl⟩ := List.mem_map.1 ha'
      rfl
    · refine filterMap_none ?_
      intro a ha'
      obtain ⟨u, -, ha'⟩ := List.mem_flatMap.1 ha'
      obtain ⟨v, -, rfl⟩ := List.mem_map.1 ha'
      rfl
    · have h1 : ∀ (u : K) (l' : List K), (l'.map fun v => Item.point u v).filterMap (fun | Item.point x y => some (x, y) | _ => none) =
          l'.map fun v => (u, v) := by
        intro u l'
        induction l' with
        | nil => rfl
        | cons v l' ih => rw [List.map_cons, List.filterMap_cons, ih]; rfl
      unfold pointsIn
      rw [List.filterMap_flatMap]
      congr 1
      funext u
      exact h1 u l'
  have l3 : ∀ (l : List K) (f : K → Item K) (g : K → K × K × K × K), (∀ u, f u = .line (g u).1 (g u).2.1 (g u).2.2.1 (g u).2.2.2) →
      linesIn (l.map f) = l.map g := by
    intro l f g h
    unfold linesIn
    induction l with
    | nil => rfl
    | cons a l ih => rw [List.map_cons, List.filterMap_cons, h a, ih]; rfl
  have app : ∀ (l l' : List (Item K)), rects (l ++ l') = rects l ++ rects l' ∧ linesIn (l ++ l') = linesIn l ++ linesIn l' ∧
      pointsIn (l ++ l') = pointsIn l ++ pointsIn l' := fun l l' => ⟨List.filterMap_append, List.filterMap_append, List.filterMap_append⟩
  obtain ⟨pr, hpr, p1, p2, p3⟩ : ∃ pr, (if size > 1 then
      (if colloc then pointRange (pointsOf A) d else knotRange ax d).bind fun rx =>
      (if colloc then pointRange (pointsOf B) e else knotRange bx e).bind fun ry =>
        Res.ok [Item.rect rx.1 ry.1 rx.2 ry.2 (decide (Int.tmod (i + j) 2 = 1))]
     else .ok []) = .ok pr ∧ rects pr = (if size > 1 then [(rx.1, ry.1, rx.2, ry.2, decide (Int.tmod (i + j) 2 = 1))] else []) ∧ linesIn pr = [] ∧ pointsIn pr = [] := by
    by_cases h : size > 1
    · simp only [if_pos h]
      rw [hx, hy]
      exact ⟨_, rfl, rfl, rfl, rfl⟩
    · simp only [if_neg h]
      exact ⟨_, rfl, rfl, rfl, rfl⟩
  obtain ⟨gr, hgr, g1, g2, g3⟩ : ∃ gr, (if rank = 0 then
      (lineKnots ax).bind fun us => (lineKnots bx).bind fun vs =>
        Res.ok (us.map (fun u => Item.line u (limits bx).1 u (limits bx).2) ++ vs.map (fun v => Item.line (limits ax).1 v (limits ax).2 v) ++
          (drawn A).flatMap fun u => (drawn B).map fun v => Item.point u v)
     else .ok []) = .ok gr ∧ rects gr = [] ∧
      linesIn gr = (if rank = 0 then us.map (fun u => (u, bx.U bx.p, u, bx.U (bx.m - bx.p))) ++
        vs.map (fun v => (ax.U ax.p, v, ax.U (ax.m - ax.p), v)) else []) ∧
      pointsIn gr = (if rank = 0 then (drawn A).flatMap fun u => (drawn B).map fun v => (u, v) else []) := by
    by_cases h : rank = 0
    · simp only [if_pos h]
      rw [eu, ev]
      refine ⟨_, rfl, ?_, ?_, ?_⟩
      · rw [(app _ _).1, (app _ _).1, (l1 _ _ fun u => ⟨_, _, _, _, rfl⟩).1, (l1 _ _ fun u => ⟨_, _, _, _, rfl⟩).1, (l2 _ _).1]
        rfl
      · rw [(app _ _).2.1, (app _ _).2.1, (l2 _ _).2.1, l3 us (fun u => Item.line u (limits bx).1 u (limits bx).2) (fun u => (u, bx.U bx.p, u, bx.U (bx.m - bx.p))) (fun _ => rfl),
          l3 vs (fun v => Item.line (limits ax).1 v (limits ax).2 v) (fun v => (ax.U ax.p, v, ax.U (ax.m - ax.p), v)) (fun _ => rfl), List.append_nil]
      · rw [(app _ _).2.2, (app _ _).2.2, (l1 _ _ fun u => ⟨_, _, _, _, rfl⟩).2, (l1 _ _ fun u => ⟨_, _, _, _, rfl⟩).2, (l2 _ _).2.2]
        rfl
    · simp only [if_neg h]
      exact ⟨_, rfl, rfl, rfl, rfl⟩
  refine ⟨Item.window ((limits ax).1 - frac * ((limits ax).2 - (limits ax).1)) ((limits bx).1 - frac * ((limits bx).2 - (limits bx).1))
    ((limits ax).2 + frac * ((limits ax).2 - (limits ax).1)) ((limits bx).2 + frac * ((limits bx).2 - (limits bx).1)) :: (pr ++ gr), us, vs, ?_, eu, ev, ?_, ?_, ?_⟩
  · unfold draw
    dsimp only
    rw [hpr, okb, hgr, okb]
  · show rects (pr ++ gr) = _
    rw [(app _ _).1, p1, g1, List.append_nil]
  · show linesIn (pr ++ gr) = _
    rw [(app _ _).2.1, p2, g2, List.nil_append]
  · show pointsIn (pr ++ gr) = _
    rw [(app _ _).2.2, p3, g3, List.nil_append]

/-! ### All processes -/

variable {g2 : Guess2} {g3 : Guess3} {colloc : Bool} {size : Int} {procs : List Int} {axes axs : List (Axis K)} {ax bx : Axis K}
  {Ls : List (Layout K)}

/-- The range of a process in a direction with elements. -/
theorem knotRange_ok {ax : Axis K} (h : WF ax) {P : Int} (hP : 1 ≤ P) (hN : P ≤ ax.nel) :
    ∃ c : Int → K, (∀ r, 0 ≤ r → r < P → knotRange ax (dirAt false ax P r) = .ok (c r, c (r+1)) ∧ c r < c (r+1) ∧
      ∀ i, 0 ≤ i → i < ax.nel → ((dirAt false ax P r).elemStart ≤ i ∧ i < (dirAt false ax P r).elemStart + (dirAt false ax P r).elemWidth ↔
        c r ≤ ax.U (sp ax i) ∧ ax.U (sp ax i + 1) ≤ c (r+1))) ∧ c 0 = ax.U ax.p ∧ c P = ax.U (ax.m - ax.p) := by
  have T := elem_tiles false (ax := ax) hP hN
  have hg : gridSize false ax = ax.nel := rfl
  rw [hg] at T
  obtain ⟨e0, eP⟩ := edge_ends T hP
  refine ⟨fun r => knotOf ax (edge P ax.nel (fun r => (dirAt false ax P r).elemStart) r), ?_, ?_, ?_⟩
  · intro r h0 h1
    obtain ⟨t0, t1, t2⟩ := tiles_range T h0 h1
    obtain ⟨n0, n1⟩ := edge_next T h0 h1
    dsimp only at t0 t1 t2 n0 n1 ⊢
    rw [n0, n1]
    generalize hd : dirAt false ax P r = d at *
    refine ⟨?_, knotOf_lt h.toPreWF t0 (by omega) t2, ?_⟩
    · unfold knotRange
      rw [spanAt_ok h.toPreWF t0 (by omega), okb, spanAt_ok h.toPreWF (by omega) (by omega), okb, knotOf_end h.toPreWF (by omega) (by omega)]
      rw [show d.elemStart + d.elemWidth - 1 + 1 = d.elemStart + d.elemWidth by ring]
      have : ax.U (sp ax d.elemStart) = knotOf ax d.elemStart := by unfold knotOf; rw [if_pos (by omega)]
      rw [this]
    · intro i i0 i1
      rw [knotOf_end h.toPreWF i0 i1]
      have e : ax.U (sp ax i) = knotOf ax i := by unfold knotOf; rw [if_pos i1]
      rw [e, knotOf_le_iff h.toPreWF t0 (by omega) i0 (by omega), knotOf_le_iff h.toPreWF (by omega) (by omega) (by omega) t2]
      omega
  · dsimp only; rw [e0]; exact knotOf_first h.toPreWF (by omega)
  · dsimp only; rw [eP]; unfold knotOf; rw [if_neg (by omega)]

/-- The range of a process in a direction with collocation points. -/
theorem pointRange_all {ax : Axis K} (h : WF ax) {P : Int} (hP : 1 ≤ P) (hN : P ≤ ax.nnp) {cb : Int → K → V} {bt : BasisType} {B : Basis K V}
    (hB : initCollocation cb bt ax = .ok B) :
    ∃ c : Int → K, (∀ r, 0 ≤ r → r < P → pointRange (pointsOf B) (dirAt true ax P r) = .ok (c r, c (r+1)) ∧ c r ≤ c (r+1)) ∧
      pointAt (pointsOf B) 0 = .ok (c 0) ∧ pointAt (pointsOf B) (ax.nnp - 1) = .ok (c P) := by
  have T := col_node_tiles (ax := ax) hP hN
  have hsz : ∀ r, (dirAt true ax P r).nodeSize = ax.nnp := fun r => rfl
  obtain ⟨e0, eP⟩ := edge_ends T hP
  obtain ⟨n, hn⟩ : ∃ n : Nat, ax.nnp = n := ⟨ax.nnp.toNat, by omega⟩
  have hpts := colloc_points hB
  obtain ⟨s1, s2, s3⟩ := shift_bounds h
  have hsh := tdiv_shift h
  generalize Int.tdiv (ax.m - ax.p - 1 + 1 - ax.nnp) 2 = sh at *
  obtain ⟨g, hg⟩ : ∃ g : Int → K, g = fun i => greville (i + sh) ax.p ax.U := ⟨_, rfl⟩
  have hpts' : pointsOf B = (List.range n).map fun (k : Nat) => g k := by rw [hpts, hn, hg]; rfl
  rw [hpts']
  have hmono : ∀ i j, 0 ≤ i → i ≤ j → j < (n:Int) → g i ≤ g j := by
    intro i j a b c
    rw [hg]
    exact grev_mono h.toPreWF (by omega) (by omega) (by omega)
  refine ⟨fun r => middle n g (edge P ax.nnp (fun r => (colDir ax P r).nodeLstart) r), ?_, ?_, ?_⟩
  · intro r h0 h1
    obtain ⟨t0, t1, t2⟩ := tiles_range T h0 h1
    obtain ⟨n0, n1⟩ := edge_next T h0 h1
    dsimp only at t0 t1 t2 n0 n1 ⊢
    rw [n0, n1]
    refine ⟨?_, middle_mono hmono t0 (by omega) (by omega)⟩
    have hd : dirAt true ax P r = colDir ax P r := rfl
    rw [hd]
    exact pointRange_ok (d := colDir ax P r) (by rw [← hn]; rfl) t0 t1 (by omega)
  · dsimp only
    rw [e0, pointAt_map g n (le_refl _) (by omega)]
    rfl
  · dsimp only
    rw [eP, hn, pointAt_map g n (by omega) (by omega)]
    unfold middle
    rw [if_neg (by omega), if_pos rfl]

/-- The processes of a set-up in two directions. -/
theorem setup_two (S : Setup g2 g3 colloc size procs axes [ax, bx] Ls) :
    ∃ P Q, (1 ≤ P ∧ P ≤ gridSize colloc ax) ∧ (1 ≤ Q ∧ Q ≤ gridSize colloc bx) ∧
      (∀ (r : Nat) L, Ls[r]? = some L → ∃ i j, 0 ≤ i ∧ i < P ∧ 0 ≤ j ∧ j < Q ∧
        L = ⟨[ax, bx], [P, Q], [i, j], [dirAt colloc ax P i, dirAt colloc bx Q j]⟩) ∧
      (∀ i j, 0 ≤ i → i < P → 0 ≤ j → j < Q → ∃ r : Nat, ∃ L, Ls[r]? = some L ∧ L.ranks = [i, j] ∧
        ∀ (r' : Nat) L', Ls[r']? = some L' → L'.ranks = [i, j] → r' = r) := by
  obtain ⟨Ps, hf, hp, hall⟩ := setup_grid S
  simp only [List.map_cons, List.map_nil] at hf
  cases hf with
  | @cons _ P _ Ps a1 a2 => cases a2 with
    | @cons _ Q _ Ps b1 b2 =>
      cases b2
      have hpos : ∀ a ∈ [P, Q], 1 ≤ a := by
        intro a ha
        simp only [List.mem_cons, List.not_mem_nil, or_false] at ha
        rcases ha with rfl | rfl
        · exact a1.1
        · exact b1.1
      refine ⟨P, Q, a1, b1, ?_, ?_⟩
      · intro r L h
        have hb : InBox [P, Q] (coords [P, Q] r) := coords_inBox hpos (by omega)
        have e := hall r L h
        generalize coords [P, Q] r = c at *
        cases hb with
        | @cons _ i _ _ u1 u2 => cases u2 with
          | @cons _ j _ _ v1 v2 =>
            cases v2
            exact ⟨i, j, u1.1, u1.2, v1.1, v1.2, e⟩
      · intro i j i0 i1 j0 j1
        have hc : InBox [P, Q] [i, j] := .cons ⟨i0, i1⟩ (.cons ⟨j0, j1⟩ .nil)
        obtain ⟨l0, l1⟩ := lin_range hc
        have hlt : (lin [P, Q] [i, j]).toNat < Ls.length := by omega
        refine ⟨_, _, List.getElem?_eq_getElem hlt, ?_, ?_⟩
        · rw [hall _ _ (List.getElem?_eq_getElem hlt), Int.toNat_of_nonneg l0]
          exact coords_lin hc
        · intro r' L' h' hr
          rw [hall r' L' h'] at hr
          dsimp only at hr
          have h2 := lin_coords hpos (r := (r':Int)) (by omega) (by have := (List.getElem?_eq_some_iff.1 h').1; omega)
          rw [hr] at h2
          omega

/-- The common part of the theorems about the rectangles. -/
theorem rects_core (S : Setup g2 g3 colloc size procs axes [ax, bx] Ls) (hsz : 1 < size) (frac : K) (A B : Basis K V) {X0 X1 Y0 Y1 : K}
    {F : Axis K → Dir → K → K → Prop}
    (hx : ∀ P, 1 ≤ P → P ≤ gridSize colloc ax → ∃ c : Int → K, (∀ r, 0 ≤ r → r < P →
      (if colloc then pointRange (pointsOf A) (dirAt colloc ax P r) else knotRange ax (dirAt colloc ax P r)) = .ok (c r, c (r+1)) ∧ c r ≤ c (r+1) ∧
      F ax (dirAt colloc ax P r) (c r) (c (r+1))) ∧ c 0 = X0 ∧ c P = X1)
    (hy : ∀ P, 1 ≤ P → P ≤ gridSize colloc bx → ∃ c : Int → K, (∀ r, 0 ≤ r → r < P →
      (if colloc then pointRange (pointsOf B) (dirAt colloc bx P r) else knotRange bx (dirAt colloc bx P r)) = .ok (c r, c (r+1)) ∧ c r ≤ c (r+1) ∧
      F bx (dirAt colloc bx P r) (c r) (c (r+1))) ∧ c 0 = Y0 ∧ c P = Y1) :
    ∃ (P Q : Int) (c d : Int → K) (R : Nat → K × K × K × K × Bool), 1 ≤ P ∧ 1 ≤ Q ∧
      (∀ (r : Nat) L, Ls[r]? = some L → ∃ items i j, draw frac colloc size r L [A, B] = .ok items ∧ rects items = [R r] ∧
        L.ranks = [i, j] ∧ L.dir = [dirAt colloc ax P i, dirAt colloc bx Q j] ∧ 0 ≤ i ∧ i < P ∧ 0 ≤ j ∧ j < Q ∧
        R r = (c i, d j, c (i+1), d (j+1), decide (Int.tmod (i + j) 2 = 1)) ∧
        F ax (dirAt colloc ax P i) (c i) (c (i+1)) ∧ F bx (dirAt colloc bx Q j) (d j) (d (j+1))) ∧
      ∀ x y, X0 ≤ x → x < X1 → Y0 ≤ y → y < Y1 →
        ∃ r, (r < Ls.length ∧ Covers (R r) x y) ∧ ∀ r', r' < Ls.length → Covers (R r') x y → r' = r := by
  obtain ⟨P, Q, ⟨p0, p1⟩, ⟨q0, q1⟩, hall, hex⟩ := setup_two S
  obtain ⟨c, hc, c0, cP⟩ := hx P p0 p1
  obtain ⟨d, hd, d0, dQ⟩ := hy Q q0 q1
  have hw := setup_wf S
  have haw := hw ax (by simp)
  have hbw := hw bx (by simp)
  obtain ⟨R, hR⟩ : ∃ R : Nat → K × K × K × K × Bool, ∀ r, R r = match (Ls[r]?).map Layout.ranks with
    | some [i, j] => (c i, d j, c (i+1), d (j+1), decide (Int.tmod (i + j) 2 = 1))
    | _ => (0, 0, 0, 0, false) := ⟨_, fun _ => rfl⟩
  have main : ∀ (r : Nat) L, Ls[r]? = some L → ∃ items i j, draw frac colloc size r L [A, B] = .ok items ∧ rects items = [R r] ∧
        L.ranks = [i, j] ∧ L.dir = [dirAt colloc ax P i, dirAt colloc bx Q j] ∧ 0 ≤ i ∧ i < P ∧ 0 ≤ j ∧ j < Q ∧
        R r = (c i, d j, c (i+1), d (j+1), decide (Int.tmod (i + j) 2 = 1)) ∧
        F ax (dirAt colloc ax P i) (c i) (c (i+1)) ∧ F bx (dirAt colloc bx Q j) (d j) (d (j+1)) := by
    intro r L h
    obtain ⟨i, j, i0, i1, j0, j1, e⟩ := hall r L h
    obtain ⟨x1, x2, x3⟩ := hc i i0 i1
    obtain ⟨y1, y2, y3⟩ := hd j j0 j1
    obtain ⟨items, -, -, e1, -, -, e2, -⟩ := draw_ok frac colloc size r haw.toPreWF hbw.toPreWF [P, Q] i j _ _ A B _ _ x1 y1
    have hr : R r = (c i, d j, c (i+1), d (j+1), decide (Int.tmod (i + j) 2 = 1)) := by
      rw [hR, h, e]; rfl
    refine ⟨items, i, j, ?_, ?_, ?_, ?_, i0, i1, j0, j1, hr, x3, y3⟩
    · rw [e]; exact e1
    · rw [e2, if_pos hsz, hr]
    · rw [e]
    · rw [e]
  refine ⟨P, Q, c, d, R, p0, q0, main, ?_⟩
  intro x y x0 x1 y0 y1
  obtain ⟨i, ⟨i0, i1, i2, i3⟩, iu⟩ := cells_unique (x := x) (fun r a b => (hc r a b).2.1) (by rw [c0]; exact x0) (by rw [cP]; exact x1) p0
  obtain ⟨j, ⟨j0, j1, j2, j3⟩, ju⟩ := cells_unique (x := y) (fun r a b => (hd r a b).2.1) (by rw [d0]; exact y0) (by rw [dQ]; exact y1) q0
  obtain ⟨r, L, h, hr, hu⟩ := hex i j i0 i1 j0 j1
  refine ⟨r, ⟨(List.getElem?_eq_some_iff.1 h).1, ?_⟩, ?_⟩
  · obtain ⟨items, i', j', -, -, e1, -, -, -, -, -, e2, -⟩ := main r L h
    rw [hr] at e1
    simp only [List.cons.injEq, and_true] at e1
    rw [e2, ← e1.1, ← e1.2]
    exact ⟨i2, i3, j2, j3⟩
  · intro r' hr' hcov
    obtain ⟨items, i', j', -, -, e1, -, a0, a1, b0, b1, e2, -⟩ := main r' _ (List.getElem?_eq_getElem hr')
    rw [e2] at hcov
    obtain ⟨v1, v2, v3, v4⟩ := hcov
    refine hu r' _ (List.getElem?_eq_getElem hr') ?_
    rw [e1, iu i' a0 a1 v1 v2, ju j' b0 b1 v3 v4]

/-- **C109**, the processes: with several processes each draws one rectangle.  It contains exactly the elements of the
process, every point of the parametric domain lies in exactly one of the rectangles, and of two rectangles side by side
or one above the other one is white and one gray. -/
theorem C109_processes (S : Setup g2 g3 false size procs axes [ax, bx] Ls) (hsz : 1 < size) (frac : K) (A B : Basis K V) :
    ∃ R : Nat → K × K × K × K × Bool,
      (∀ (r : Nat) L, Ls[r]? = some L → (∃ items, draw frac false size r L [A, B] = .ok items ∧ rects items = [R r]) ∧
        ∀ i j k l, 0 ≤ i → i < ax.nel → 0 ≤ j → j < bx.nel → spanAt ax i = .ok k → spanAt bx j = .ok l →
          (InBlock (L.dir.map Dir.elemStart) (L.dir.map Dir.elemWidth) [i, j] ↔
            (R r).1 ≤ ax.U k ∧ ax.U (k+1) ≤ (R r).2.2.1 ∧ (R r).2.1 ≤ bx.U l ∧ bx.U (l+1) ≤ (R r).2.2.2.1)) ∧
      (∀ x y, ax.U ax.p ≤ x → x < ax.U (ax.m - ax.p) → bx.U bx.p ≤ y → y < bx.U (bx.m - bx.p) →
        ∃ r, (r < Ls.length ∧ Covers (R r) x y) ∧ ∀ r', r' < Ls.length → Covers (R r') x y → r' = r) ∧
      ∀ r r', r < Ls.length → r' < Ls.length →
        ((R r).2.2.1 = (R r').1 ∧ (R r).2.1 = (R r').2.1) ∨ ((R r).1 = (R r').1 ∧ (R r).2.2.2.1 = (R r').2.1) →
        (R r).2.2.2.2 ≠ (R r').2.2.2.2 := by
  have hw := setup_wf S
  have haw := hw ax (by simp)
  have hbw := hw bx (by simp)
  obtain ⟨P, Q, c, d, R, hP, hQ, main, cov⟩ := rects_core (F := fun ax d lo hi => lo < hi ∧ ∀ i, 0 ≤ i → i < ax.nel →
      (d.elemStart ≤ i ∧ i < d.elemStart + d.elemWidth ↔ lo ≤ ax.U (sp ax i) ∧ ax.U (sp ax i + 1) ≤ hi)) S hsz frac A B
    (fun P p0 p1 => by
      obtain ⟨c, h1, h2, h3⟩ := knotRange_ok haw p0 p1
      exact ⟨c, fun r a b => ⟨(h1 r a b).1, (h1 r a b).2.1.le, (h1 r a b).2⟩, h2, h3⟩)
    (fun P p0 p1 => by
      obtain ⟨c, h1, h2, h3⟩ := knotRange_ok hbw p0 p1
      exact ⟨c, fun r a b => ⟨(h1 r a b).1, (h1 r a b).2.1.le, (h1 r a b).2⟩, h2, h3⟩)
  refine ⟨R, ?_, cov, ?_⟩
  · intro r L h
    obtain ⟨items, i₀, j₀, e1, e2, e3, e4, -, -, -, -, e5, ⟨-, f1⟩, -, f2⟩ := main r L h
    refine ⟨⟨items, e1, e2⟩, ?_⟩
    intro i j k l i0 i1 j0 j1 hk hl
    rw [spanAt_ok haw.toPreWF i0 i1] at hk
    rw [spanAt_ok hbw.toPreWF j0 j1] at hl
    simp only [Res.ok.injEq] at hk hl
    rw [e4, e5, ← hk, ← hl]
    constructor
    · intro hb
      simp only [List.map_cons, List.map_nil] at hb
      cases hb with
      | cons u1 u2 => cases u2 with
        | cons v1 v2 =>
          have a := (f1 i i0 i1).1 u1
          have b := (f2 j j0 j1).1 v1
          exact ⟨a.1, a.2, b.1, b.2⟩
    · rintro ⟨a1, a2, b1, b2⟩
      exact .cons ((f1 i i0 i1).2 ⟨a1, a2⟩) (.cons ((f2 j j0 j1).2 ⟨b1, b2⟩) .nil)
  · -- increasing edges
    have mono : ∀ {c : Int → K} {P : Int}, (∀ r, 0 ≤ r → r < P → c r < c (r+1)) → ∀ a b, 0 ≤ a → a ≤ P → 0 ≤ b → b ≤ P → c a = c b → a = b := by
      intro c P h a b a0 a1 b0 b1 e
      have key : ∀ (n : Nat) (a : Int), 0 ≤ a → a + 1 + n ≤ P → c a < c (a + 1 + n) := by
        intro n
        induction n with
        | zero => intro a a0 a1; simpa using h a a0 (by omega)
        | succ n ih =>
          intro a a0 a1
          push_cast at a1 ⊢
          refine lt_trans (ih a a0 (by omega)) ?_
          rw [← add_assoc]
          exact h _ (by omega) (by omega)
      rcases lt_trichotomy a b with hlt | heq | hgt
      · have := key (b - (a+1)).toNat a a0 (by omega)
        rw [show a + 1 + ((b-(a+1)).toNat : Int) = b by omega, e] at this
        exact absurd this (lt_irrefl _)
      · exact heq
      · have := key (a - (b+1)).toNat b b0 (by omega)
        rw [show b + 1 + ((a-(b+1)).toNat : Int) = a by omega, e] at this
        exact absurd this (lt_irrefl _)
    obtain ⟨P', Q', ⟨p0, p1⟩, ⟨q0, q1⟩, hall, hex⟩ := setup_two S
    obtain ⟨c', hc, -⟩ := knotRange_ok haw p0 p1
    obtain ⟨d', hd, -⟩ := knotRange_ok hbw q0 q1
    -- the ranges of `main` are those ranges
    have same : ∀ (r : Nat) L, Ls[r]? = some L → ∃ i j, 0 ≤ i ∧ i < P' ∧ 0 ≤ j ∧ j < Q' ∧
        R r = (c' i, d' j, c' (i+1), d' (j+1), decide (Int.tmod (i + j) 2 = 1)) := by
      intro r L h
      obtain ⟨items, i₀, j₀, e1, e2, -⟩ := main r L h
      obtain ⟨i, j, i0, i1, j0, j1, e⟩ := hall r L h
      obtain ⟨items', -, -, e1', -, -, e2', -⟩ := draw_ok frac false size r haw.toPreWF hbw.toPreWF [P', Q'] i j _ _ A B _ _ (hc i i0 i1).1 (hd j j0 j1).1
      rw [e, e1'] at e1
      simp only [Res.ok.injEq] at e1
      rw [← e1, e2', if_pos hsz] at e2
      simp only [List.cons.injEq, and_true] at e2
      exact ⟨i, j, i0, i1, j0, j1, e2.symm⟩
    intro r r' hr hr' hn
    obtain ⟨i, j, i0, i1, j0, j1, e⟩ := same r _ (List.getElem?_eq_getElem hr)
    obtain ⟨i', j', i0', i1', j0', j1', e'⟩ := same r' _ (List.getElem?_eq_getElem hr')
    rw [e, e'] at hn ⊢
    dsimp only at hn ⊢
    have mc := mono (fun r a b => (hc r a b).2.1)
    have md := mono (fun r a b => (hd r a b).2.1)
    have hp : (i' = i + 1 ∧ j' = j) ∨ (i' = i ∧ j' = j + 1) := by
      rcases hn with ⟨h1, h2⟩ | ⟨h1, h2⟩
      · left; exact ⟨(mc _ _ (by omega) (by omega) (by omega) (by omega) h1).symm, (md _ _ (by omega) (by omega) (by omega) (by omega) h2).symm⟩
      · right; exact ⟨(mc _ _ (by omega) (by omega) (by omega) (by omega) h1).symm, (md _ _ (by omega) (by omega) (by omega) (by omega) h2).symm⟩
    rw [Int.tmod_eq_emod_of_nonneg (by omega), Int.tmod_eq_emod_of_nonneg (by omega)]
    intro hdec
    rw [decide_eq_decide] at hdec
    rcases hp with ⟨rfl, rfl⟩ | ⟨rfl, rfl⟩ <;> omega

/-- **C109**, the processes with collocation: every point between the first and the last collocation point lies in exactly
one of the rectangles. -/
theorem C109_processes_collocation (S : Setup g2 g3 true size procs axes [ax, bx] Ls) (hsz : 1 < size) (frac : K) {cbA cbB : Int → K → V} {ta tb : BasisType}
    {A B : Basis K V} (hA : initCollocation cbA ta ax = .ok A) (hB : initCollocation cbB tb bx = .ok B) :
    ∃ (R : Nat → K × K × K × K × Bool) (x0 x1 y0 y1 : K), (pointsOf A).head? = some x0 ∧ (pointsOf A).getLast? = some x1 ∧
      (pointsOf B).head? = some y0 ∧ (pointsOf B).getLast? = some y1 ∧
      (∀ (r : Nat) L, Ls[r]? = some L → ∃ items, draw frac true size r L [A, B] = .ok items ∧ rects items = [R r]) ∧
      ∀ x y, x0 ≤ x → x < x1 → y0 ≤ y → y < y1 →
        ∃ r, (r < Ls.length ∧ Covers (R r) x y) ∧ ∀ r', r' < Ls.length → Covers (R r') x y → r' = r := by
  have hw := setup_wf S
  have haw := hw ax (by simp)
  have hbw := hw bx (by simp)
  have ends : ∀ {ax : Axis K} {cb : Int → K → V} {t : BasisType} {A : Basis K V}, initCollocation cb t ax = .ok A → 1 ≤ ax.nnp →
      ∃ x0 x1, pointAt (pointsOf A) 0 = .ok x0 ∧ pointAt (pointsOf A) (ax.nnp - 1) = .ok x1 ∧
        (pointsOf A).head? = some x0 ∧ (pointsOf A).getLast? = some x1 := by
    intro ax cb t A h hn
    have hp := colloc_points h
    generalize hl : pointsOf A = l at *
    have hlen : l.length = ax.nnp.toNat := by rw [hp]; simp
    have h0 : 0 < l.length := by omega
    refine ⟨l[0], l[l.length - 1], ?_, ?_, ?_, ?_⟩
    · unfold pointAt; rw [if_neg (by omega)]
      simp [List.getElem?_eq_getElem h0, Res.ofOption]
    · unfold pointAt
      rw [if_neg (by omega), show (ax.nnp - 1).toNat = l.length - 1 by omega, List.getElem?_eq_getElem (by omega)]
      rfl
    · rw [List.head?_eq_getElem?, List.getElem?_eq_getElem h0]
    · rw [List.getLast?_eq_getElem?, List.getElem?_eq_getElem (by omega)]
  obtain ⟨P, Q, ⟨p0, p1⟩, ⟨q0, q1⟩, -, -⟩ := setup_two S
  have hna : 1 ≤ ax.nnp := by have : P ≤ ax.nnp := p1; omega
  have hnb : 1 ≤ bx.nnp := by have : Q ≤ bx.nnp := q1; omega
  obtain ⟨x0, x1, a0, a1, a2, a3⟩ := ends hA hna
  obtain ⟨y0, y1, b0, b1, b2, b3⟩ := ends hB hnb
  obtain ⟨P, Q, c, d, R, hP, hQ, main, cov⟩ := rects_core (F := fun _ _ _ _ => True) (X0 := x0) (X1 := x1) (Y0 := y0) (Y1 := y1) S hsz frac A B
    (fun P p0 p1 => by
      obtain ⟨c, h1, h2, h3⟩ := pointRange_all haw p0 p1 hA
      rw [a0] at h2; rw [a1] at h3
      simp only [Res.ok.injEq] at h2 h3
      exact ⟨c, fun r a b => ⟨(h1 r a b).1, (h1 r a b).2, trivial⟩, h2.symm, h3.symm⟩)
    (fun P p0 p1 => by
      obtain ⟨c, h1, h2, h3⟩ := pointRange_all hbw p0 p1 hB
      rw [b0] at h2; rw [b1] at h3
      simp only [Res.ok.injEq] at h2 h3
      exact ⟨c, fun r a b => ⟨(h1 r a b).1, (h1 r a b).2, trivial⟩, h2.symm, h3.symm⟩)
  refine ⟨R, x0, x1, y0, y1, a2, a3, b2, b3, ?_, cov⟩
  intro r L h
  obtain ⟨items, i, j, e1, e2, -⟩ := main r L h
  exact ⟨items, e1, e2⟩

/-- **C109**, lines and points: the first process draws a line through the whole domain at every knot of the domain, once
however often the knot is repeated, and a point for every pair of points of the rules with positive weights; the others
draw neither.  With one process there are no rectangles. -/
theorem C109_grid (S : Setup g2 g3 colloc size procs axes [ax, bx] Ls) (frac : K) {A B : Basis K V}
    (hAB : colloc = true → ∃ cbA cbB ta tb, initCollocation cbA ta ax = .ok A ∧ initCollocation cbB tb bx = .ok B)
    (r : Nat) (L : Layout K) (h : Ls[r]? = some L) :
    ∃ (items : List (Item K)) (us vs : List K), draw frac colloc size r L [A, B] = .ok items ∧
      us.Pairwise (· < ·) ∧ (∀ x, x ∈ us ↔ ∃ k, ax.p ≤ k ∧ k ≤ ax.m - ax.p ∧ x = ax.U k) ∧
      vs.Pairwise (· < ·) ∧ (∀ y, y ∈ vs ↔ ∃ k, bx.p ≤ k ∧ k ≤ bx.m - bx.p ∧ y = bx.U k) ∧
      linesIn items = (if r = 0 then us.map (fun x => (x, bx.U bx.p, x, bx.U (bx.m - bx.p))) ++
        vs.map (fun y => (ax.U ax.p, y, ax.U (ax.m - ax.p), y)) else []) ∧
      pointsIn items = (if r = 0 then (drawn A).flatMap fun x => (drawn B).map fun y => (x, y) else []) ∧
      (size = 1 → rects items = []) := by
  have hw := setup_wf S
  have haw := hw ax (by simp)
  have hbw := hw bx (by simp)
  obtain ⟨P, Q, ⟨p0, p1⟩, ⟨q0, q1⟩, hall, -⟩ := setup_two S
  obtain ⟨i, j, i0, i1, j0, j1, e⟩ := hall r L h
  obtain ⟨rx, hx⟩ : ∃ rx, (if colloc then pointRange (pointsOf A) (dirAt colloc ax P i) else knotRange ax (dirAt colloc ax P i)) = .ok rx := by
    cases colloc
    · obtain ⟨c, h1, -⟩ := knotRange_ok haw p0 p1
      exact ⟨_, (h1 i i0 i1).1⟩
    · obtain ⟨cbA, cbB, ta, tb, hA, hB⟩ := hAB rfl
      obtain ⟨c, h1, -⟩ := pointRange_all haw p0 p1 hA
      exact ⟨_, (h1 i i0 i1).1⟩
  obtain ⟨ry, hy⟩ : ∃ ry, (if colloc then pointRange (pointsOf B) (dirAt colloc bx Q j) else knotRange bx (dirAt colloc bx Q j)) = .ok ry := by
    cases colloc
    · obtain ⟨c, h1, -⟩ := knotRange_ok hbw q0 q1
      exact ⟨_, (h1 j j0 j1).1⟩
    · obtain ⟨cbA, cbB, ta, tb, hA, hB⟩ := hAB rfl
      obtain ⟨c, h1, -⟩ := pointRange_all hbw q0 q1 hB
      exact ⟨_, (h1 j j0 j1).1⟩
  obtain ⟨items, us, vs, e1, e2, e3, e4, e5, e6⟩ := draw_ok frac colloc size r haw.toPreWF hbw.toPreWF [P, Q] i j _ _ A B _ _ hx hy
  obtain ⟨us', f1, f2, f3⟩ := lineKnots_ok haw.toPreWF
  obtain ⟨vs', k1, k2, k3⟩ := lineKnots_ok hbw.toPreWF
  rw [f1] at e2; rw [k1] at e3
  simp only [Res.ok.injEq] at e2 e3
  subst e2; subst e3
  refine ⟨items, us', vs', by rw [e]; exact e1, f2, f3, k2, k3, ?_, ?_, ?_⟩
  · rw [e5]; simp only [Int.natCast_eq_zero]
  · rw [e6]; simp only [Int.natCast_eq_zero]
  · intro hs
    rw [e4, if_neg (by omega)]

/-- **C109**, the quadrature points of a rule with positive weights (as all rules of the library have): in every element
the points of the rule. -/
theorem C109_points {cb : Int → K → V} {huge : K} {bt : BasisType} {ax : Axis K} {q q' : Rule.Rule K} {B : Basis K V}
    (h : initQuadrature cb huge bt ax q = (.ok (), q', some B)) (hn : 1 ≤ q.nqp) (ht : q.type ≠ .reduced) {X W : List K} (hX : q.point = some X) (hW : q.weight = some W)
    (hlX : X.length = q.nqp.toNat) (hlW : W.length = q.nqp.toNat) (hpos : ∀ w ∈ W, 0 < w) :
    drawn B = ax.span.flatMap fun k => X.map fun x => (x + 1) * ((ax.U (k+1) - ax.U k) / 2) + ax.U k := by
  unfold initQuadrature at h
  rw [if_neg (by omega)] at h
  dsimp only at h
  split_ifs at h with h1
  · simp at h
  rw [hX, hW] at h
  dsimp only at h
  simp only [Prod.mk.injEq, true_and, Option.some.injEq] at h
  obtain ⟨-, rfl⟩ := h
  unfold drawn pointsOf weightsOf
  dsimp only
  rw [List.flatMap_map, List.flatMap_map]
  have hel : ∀ k, (mkElem cb ax.p ax.U q.nqp.toNat huge X W k).point = X.map (fun x => (x + 1) * ((ax.U (k+1) - ax.U k) / 2) + ax.U k) ∧
      (mkElem cb ax.p ax.U q.nqp.toNat huge X W k).weight = W := by
    intro k
    unfold mkElem setRule
    dsimp only
    rw [hlX, hlW, Nat.sub_self]
    simp
  induction ax.span with
  | nil => rfl
  | cons k l ih =>
    rw [List.flatMap_cons, List.flatMap_cons, List.flatMap_cons, (hel k).1, (hel k).2]
    rw [List.zip_append (by rw [List.length_map, hlX, hlW]), List.filter_append, List.map_append, ih]
    congr 1
    rw [List.filter_eq_self.2]
    · rw [List.map_fst_zip]
      rw [List.length_map, hlX, hlW]
    · intro a ha
      have := hpos a.2 (List.of_mem_zip ha).2
      simpa using this

/-- **C109**, the window: the domain and a margin of the given fraction of its width on every side. -/
theorem C109_window (S : Setup g2 g3 colloc size procs axes [ax, bx] Ls) (frac : K) {A B : Basis K V}
    (r : Nat) (L : Layout K) (h : Ls[r]? = some L) {items : List (Item K)} (hi : draw frac colloc size r L [A, B] = .ok items) :
    items.head? = some (.window (ax.U ax.p - frac * (ax.U (ax.m - ax.p) - ax.U ax.p)) (bx.U bx.p - frac * (bx.U (bx.m - bx.p) - bx.U bx.p))
      (ax.U (ax.m - ax.p) + frac * (ax.U (ax.m - ax.p) - ax.U ax.p)) (bx.U (bx.m - bx.p) + frac * (bx.U (bx.m - bx.p) - bx.U bx.p))) := by
  obtain ⟨P, Q, -, -, hall, -⟩ := setup_two S
  obtain ⟨i, j, -, -, -, -, e⟩ := hall r L h
  rw [e] at hi
  unfold draw at hi
  dsimp only at hi
  obtain ⟨_, -, hi⟩ := Res.bind_eq_ok.1 hi
  obtain ⟨_, -, hi⟩ := Res.bind_eq_ok.1 hi
  simp only [Res.ok.injEq] at hi
  rw [← hi]
  rfl

/-- **C109**: nothing is drawn in other dimensions. -/
theorem C109_other_dimensions (S : Setup g2 g3 colloc size procs axes axs Ls) (hd : axs.length ≠ 2) (frac : K) (Bs : List (Basis K V))
    (r : Nat) (L : Layout K) (h : Ls[r]? = some L) : draw frac colloc size r L Bs = .ok [] := by
  have hax : L.axes = axs := stage1_axes (S.ranks.2 r L h) S.set
  rw [← hax] at hd
  clear hax
  unfold draw
  split
  · exfalso
    apply hd
    simp only [*, List.length_cons, List.length_nil]
  · rfl

/-! ### Examples -/

/-- Four processes, one direction periodic. -/
example (g2 : Guess2) (g3 : Guess3) (A B : Basis Rat Unit) : ∃ (ax bx : Axis Rat) (Ls : List (Layout Rat)), Ls.length = 4 ∧ ax.nel = 6 ∧ ax.periodic = true ∧
    ∃ R : Nat → Rat × Rat × Rat × Rat × Bool, ∀ x y, ax.U ax.p ≤ x → x < ax.U (ax.m - ax.p) → bx.U bx.p ≤ y → y < bx.U (bx.m - bx.p) →
      ∃ r, (r < 4 ∧ Covers (R r) x y) ∧ ∀ r', r' < 4 → Covers (R r') x y → r' = r := by
  obtain ⟨Ls, S⟩ := exSetup g2 g3
  have hl : Ls.length = 4 := by have := S.ranks.1; omega
  obtain ⟨R, -, h, -⟩ := C109_processes S (by omega) (1/20) A B
  rw [hl] at h
  exact ⟨_, _, Ls, hl, by decide +kernel, by decide +kernel, R, h⟩

/-- Four processes with collocation. -/
example : ∃ (A B : Basis Rat Unit) (Ls : List (Layout Rat)) (R : Nat → Rat × Rat × Rat × Rat × Bool), Ls.length = 4 ∧
    ∃ x0 x1 y0 y1, (pointsOf A).head? = some x0 ∧ (pointsOf A).getLast? = some x1 ∧ ∀ x y, x0 ≤ x → x < x1 → y0 ≤ y → y < y1 →
      ∃ r, (r < 4 ∧ Covers (R r) x y) ∧ ∀ r', r' < 4 → Covers (R r') x y → r' = r := by
  obtain ⟨Ls, S⟩ := exSetupC
  have hl : Ls.length = 4 := by have := S.ranks.1; omega
  have ok : ∀ ax ∈ exAxs, (initCollocation (fun _ (_ : Rat) => ()) .bspline ax).isOk = true := by decide +kernel
  have ex : ∀ ax ∈ exAxs, ∃ A, initCollocation (fun _ (_ : Rat) => ()) .bspline ax = .ok A := by
    intro ax h
    have := ok ax h
    cases hq : initCollocation (fun _ (_ : Rat) => ()) .bspline ax with
    | ok A => exact ⟨A, rfl⟩
    | err e => rw [hq] at this; cases this
    | ub => rw [hq] at this; cases this
  obtain ⟨A, hA⟩ := ex _ (by simp [exAxs] : (Ax.setUp exAx0).2 ∈ exAxs)
  obtain ⟨B, hB⟩ := ex _ (by simp [exAxs] : (Ax.setUp exAx1).2 ∈ exAxs)
  obtain ⟨R, x0, x1, y0, y1, a, b, -, -, -, h⟩ := C109_processes_collocation S (by omega) (1/20) hA hB
  rw [hl] at h
  exact ⟨A, B, Ls, R, hl, x0, x1, y0, y1, a, b, h⟩

/-- A rule with two points on the first direction of the example: twelve points in its six elements. -/
example : ∃ (B : Basis Rat Unit) (q' : Rule.Rule Rat), initQuadrature (fun _ (_ : Rat) => ()) 1000 .bspline (Ax.setUp exAx0).2 ⟨.user, 2, some [-1/2, 1/2], some [1, 1]⟩ = (.ok (), q', some B) ∧
    drawn B = (Ax.setUp exAx0).2.span.flatMap (fun k => [-1/2, 1/2].map fun x => (x + 1) * (((Ax.setUp exAx0).2.U (k+1) - (Ax.setUp exAx0).2.U k) / 2) + (Ax.setUp exAx0).2.U k) ∧
    (drawn B).length = 12 := by
  have ok : (match initQuadrature (fun _ (_ : Rat) => ()) 1000 .bspline (Ax.setUp exAx0).2 ⟨.user, 2, some [-1/2, 1/2], some [1, 1]⟩ with
      | (.ok (), _, some B) => (drawn B).length | _ => 0) = 12 := by decide +kernel
  rcases hq : initQuadrature (fun _ (_ : Rat) => ()) 1000 .bspline (Ax.setUp exAx0).2 ⟨.user, 2, some [-1/2, 1/2], some [1, 1]⟩ with ⟨a, q', b⟩
  rw [hq] at ok
  cases a with
  | ok u =>
    cases b with
    | some B =>
      exact ⟨B, q', rfl, C109_points hq (by decide) (by decide) rfl rfl rfl rfl (by decide +kernel), ok⟩
    | none => cases ok
  | err e => cases ok
  | ub => cases ok

/-- The lines of the periodic direction of the example: seven, at the ends of its six elements. -/
example : (match lineKnots (Ax.setUp exAx0).2 with | .ok l => l.length | _ => 0) = 7 := by decide +kernel

end PetIGA.Plt
