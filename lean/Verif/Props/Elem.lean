import Verif.Model.Elem
import Verif.Props.Layout
import Mathlib.Data.List.Nodup
/-! Property theorems about the element, form and point loops and the closure (C03, C23, C24, C25, C65). -/
set_option linter.unusedSectionVars false
namespace PetIGA.Elem
open PetIGA.Ax PetIGA.Part PetIGA.Spec PetIGA.Lay

variable {K : Type} [Field K] [LinearOrder K] [IsStrictOrderedRing K]

/-! ### C03 -/

/-- The fields that define the loop. -/
def frame (e : Elem) : List Int × List Int × List Int × Int := (e.start, e.width, e.sizes, e.count)

theorem call_frame (e : Elem) (c : Call) : frame (call e c) = frame e := by
  cases c with
  | begin_ => rfl
  | next bad => unfold call next frame; dsimp only; split_ifs <;> rfl
  | end_ => unfold call end_ frame; split_ifs <;> rfl
  | form v =>
    unfold call nextForm frame
    dsimp only
    rcases scanForm e v (2 * e.dim + 2).toNat e.boundaryId with ⟨_ | b, b'⟩
    · dsimp only; split_ifs <;> rfl
    · rfl
  | endPoint c =>
    show frame (endPoint c e) = frame e
    unfold endPoint frame; split_ifs <;> rfl

theorem calls_frame (cs : List Call) (e : Elem) : frame (cs.foldl call e) = frame e := by
  induction cs generalizing e with
  | nil => rfl
  | cons c cs ih => rw [List.foldl_cons, ih, call_frame]

theorem mulAll_eq (l : List Int) (a : Int) : mulAll l a = a * prod l := by
  induction l generalizing a with
  | nil => simp [mulAll, prod]
  | cons w ws ih => rw [mulAll, ih, prod]; ring

theorem decode_eq : ∀ (ws ss : List Int) (i : Int), ws.length = ss.length →
    decode ws ss i = List.zipWith (· + ·) (coords ws i) ss := by
  intro ws
  induction ws with
  | nil => intro ss i h; cases ss with | nil => rfl | cons => simp at h
  | cons w ws ih =>
    intro ss i h
    cases ss with
    | nil => simp at h
    | cons s ss => simp only [decode, coords, List.zipWith_cons_cons]; rw [ih _ _ (by simpa using h)]

theorem run_good (e : Elem) : ∀ (n : Nat) (f : Nat) (x : Elem), frame x = frame e → 
    (0 ≤ x.index + 1) → x.index + 1 + n = x.count → n < f →
    (run (fun _ => false) f x).1 = (List.range n).map (fun (k : Nat) => decode e.width e.start (x.index + 1 + (k:Int))) ∧
    (run (fun _ => false) f x).2.index = -1 ∧ frame (run (fun _ => false) f x).2 = frame e := by
  intro n
  induction n with
  | zero =>
    intro f x hx h0 hc hf
    obtain ⟨f, rfl⟩ : ∃ g, f = g + 1 := ⟨f-1, by omega⟩
    unfold run next
    dsimp only
    rw [if_pos (by push_cast at hc; omega)]
    exact ⟨rfl, rfl, hx⟩
  | succ n ih =>
    intro f x hx h0 hc hf
    obtain ⟨f, rfl⟩ : ∃ g, f = g + 1 := ⟨f-1, by omega⟩
    unfold run next
    dsimp only
    rw [if_neg (by push_cast at hc; omega), if_neg (by simp)]
    dsimp only
    have hw : x.width = e.width ∧ x.start = e.start := by
      unfold frame at hx; simp only [Prod.mk.injEq] at hx; exact ⟨hx.2.1, hx.1⟩
    obtain ⟨a, b, c⟩ := ih f { x with index := x.index + 1, id := decode x.width x.start (x.index + 1) } hx
      (by dsimp only; omega) (by dsimp only; push_cast at hc; omega) (by omega)
    refine ⟨?_, b, c⟩
    rw [a, List.range_succ_eq_map (n := n), List.map_cons (l := List.map _ _), List.map_map, hw.1, hw.2]
    congr 1
    · simp
    · apply List.map_congr_left
      intro k _
      dsimp only [Function.comp_apply]
      congr 1
      push_cast; ring

/-- The block `∏ [start_d, start_d+width_d)` listed once each. -/
theorem block_count : ∀ {ws ss : List Int}, (∀ w ∈ ws, 1 ≤ w) → ws.length = ss.length →
    (∀ x, InBlock ss ws x → List.count x ((List.range (prod ws).toNat).map fun (k : Nat) => decode ws ss (k:Int)) = 1) ∧
    (∀ x, ¬ InBlock ss ws x → List.count x ((List.range (prod ws).toNat).map fun (k : Nat) => decode ws ss (k:Int)) = 0) := by
  intro ws ss hw hl
  have hblock : ∀ (ss ws cs : List Int), InBox ws cs → ws.length = ss.length →
      InBlock ss ws (List.zipWith (· + ·) cs ss) := by
    intro ss
    induction ss with
    | nil => intro ws cs hb hl; cases hb with | nil => exact .nil | cons => simp at hl
    | cons s ss ih =>
      intro ws cs hb hl
      cases hb with
      | nil => simp at hl
      | cons h1 h2 => exact .cons (by dsimp only; omega) (ih _ _ h2 (by simpa using hl))
  have hblock' : ∀ (ss ws x : List Int), InBlock ss ws x → ∃ cs, InBox ws cs ∧ x = List.zipWith (· + ·) cs ss := by
    intro ss ws x hb
    induction hb with
    | nil => exact ⟨[], .nil, rfl⟩
    | @cons s l i ss ls is h1 _ ih =>
      obtain ⟨cs, h2, h3⟩ := ih
      exact ⟨(i - s) :: cs, .cons (by omega) h2, by rw [List.zipWith_cons_cons, ← h3]; congr 1; ring⟩
  have hinj : ∀ (ss cs cs' : List Int), cs.length = ss.length → cs'.length = ss.length →
      List.zipWith (· + ·) cs ss = List.zipWith (· + ·) cs' ss → cs = cs' := by
    intro ss
    induction ss with
    | nil => intro cs cs' h1 h2 _; rw [List.length_nil, List.length_eq_zero_iff] at h1 h2; rw [h1, h2]
    | cons s ss ih =>
      intro cs cs' h1 h2 h
      cases cs with
      | nil => simp at h1
      | cons c cs =>
        cases cs' with
        | nil => simp at h2
        | cons c' cs' =>
          simp only [List.zipWith_cons_cons, List.cons.injEq] at h
          rw [ih cs cs' (by simpa using h1) (by simpa using h2) h.2]
          congr 1; omega
  have hnd : ((List.range (prod ws).toNat).map fun (k : Nat) => decode ws ss (k:Int)).Nodup := by
    rw [List.nodup_map_iff_inj_on List.nodup_range]
    intro a ha b hb hab
    rw [List.mem_range] at ha hb
    rw [decode_eq _ _ _ hl, decode_eq _ _ _ hl] at hab
    have e1 := List.Forall₂.length_eq (coords_inBox (ns := ws) (r := a) hw (by omega))
    have e2 := List.Forall₂.length_eq (coords_inBox (ns := ws) (r := b) hw (by omega))
    have := hinj _ _ _ (by omega) (by omega) hab
    have l1 := lin_coords (ns := ws) (r := a) hw (by omega) (by omega)
    have l2 := lin_coords (ns := ws) (r := b) hw (by omega) (by omega)
    rw [this] at l1
    omega
  constructor
  · intro x hx
    apply List.count_eq_one_of_mem hnd
    obtain ⟨cs, h1, rfl⟩ := hblock' _ _ _ hx
    rw [List.mem_map]
    obtain ⟨r0, r1⟩ := lin_range h1
    refine ⟨(lin ws cs).toNat, by rw [List.mem_range]; omega, ?_⟩
    rw [decode_eq _ _ _ hl, show ((lin ws cs).toNat : Int) = lin ws cs by omega, coords_lin h1]
  · intro x hx
    rw [List.count_eq_zero]
    intro hm
    rw [List.mem_map] at hm
    obtain ⟨k, hk, rfl⟩ := hm
    apply hx
    rw [decode_eq _ _ _ hl]
    exact hblock _ _ _ (coords_inBox hw (by omega)) hl

theorem prod_nonneg : ∀ {ws : List Int}, (∀ w ∈ ws, 1 ≤ w) → 1 ≤ prod ws := by
  intro ws
  induction ws with
  | nil => intro _; simp [prod]
  | cons w ws ih =>
    intro h
    have h1 := h w (by simp)
    have h2 := ih (fun a ha => h a (by simp [ha]))
    simp only [prod]
    nlinarith

/-- One process: from whatever state earlier calls left the iterator in, the loop ends without error and visits
each element of its block exactly once and nothing else. -/
theorem loop_visits (ds : List Dir) (hw : ∀ d ∈ ds, 1 ≤ d.elemWidth) (atb : Bool) (bid : Int) (cs : List Call) :
    (loop (fun _ => false) (cs.foldl call (init ds atb bid))).1 = .ok () ∧
    (∀ x, InBlock (ds.map Dir.elemStart) (ds.map Dir.elemWidth) x →
      List.count x (loop (fun _ => false) (cs.foldl call (init ds atb bid))).2.1 = 1) ∧
    (∀ x, ¬ InBlock (ds.map Dir.elemStart) (ds.map Dir.elemWidth) x →
      List.count x (loop (fun _ => false) (cs.foldl call (init ds atb bid))).2.1 = 0) := by
  have hfr := calls_frame cs (init ds atb bid)
  generalize cs.foldl call (init ds atb bid) = e at *
  unfold frame init at hfr
  simp only [Prod.mk.injEq] at hfr
  obtain ⟨h1, h2, h3, h4⟩ := hfr
  rw [mulAll_eq, one_mul] at h4
  have hw' : ∀ w ∈ ds.map Dir.elemWidth, 1 ≤ w := by
    intro w hm; rw [List.mem_map] at hm; obtain ⟨d, hd, rfl⟩ := hm; exact hw d hd
  have hp := prod_nonneg hw'
  obtain ⟨a, b, c⟩ := run_good (begin_ e) (prod (ds.map Dir.elemWidth)).toNat (e.count.toNat + 1) (begin_ e) rfl
    (by simp [begin_]) (by simp only [begin_]; omega) (by omega)
  have ha : (run (fun _ => false) (e.count.toNat + 1) (begin_ e)).1 =
      (List.range (prod (ds.map Dir.elemWidth)).toNat).map fun (k : Nat) =>
        decode (ds.map Dir.elemWidth) (ds.map Dir.elemStart) (k:Int) := by
    rw [a]
    apply List.map_congr_left
    intro k _
    simp [begin_, h1, h2]
  have hl : (ds.map Dir.elemWidth).length = (ds.map Dir.elemStart).length := by simp
  obtain ⟨B1, B2⟩ := block_count hw' hl
  have e1 : (loop (fun _ => false) e).2.1 = (run (fun _ => false) (e.count.toNat + 1) (begin_ e)).1 := rfl
  have e2 : (loop (fun _ => false) e).1 = .ok () := by
    have : (loop (fun _ => false) e).1 = (end_ (run (fun _ => false) (e.count.toNat + 1) (begin_ e)).2).1 := rfl
    rw [this]
    unfold end_
    rw [if_neg (by rw [b]; simp)]
  rw [e1, ha]
  exact ⟨e2, B1, B2⟩

/-- **C03.** After a successful setup, on every process, from any history of iterator calls (loops abandoned in
the middle included), the element loop ends without error; and each element of the global grid is visited exactly
once on exactly one process and not at all on the others. -/
theorem C03_each_element_once (g2 : Guess2) (g3 : Guess3) (colloc : Bool) (size rank : Int)
    (procs : List Int) (axes : List (Axis K)) (L : Layout K) (hr : ∀ ax ∈ axes, Reached ax)
    (h : stage1 g2 g3 colloc size rank procs axes = .ok L) :
    (∀ r, 0 ≤ r → r < size → ∃ Lr, stage1 g2 g3 colloc size r procs axes = .ok Lr ∧
      ∀ (atb : Bool) (bid : Int) (cs : List Call), (loop (fun _ => false) (cs.foldl call (init Lr.dir atb bid))).1 = .ok ()) ∧
    ∀ x, InBox (L.axes.map (gridSize colloc)) x →
      ∃ r, (0 ≤ r ∧ r < size) ∧ ∀ r' Lr, stage1 g2 g3 colloc size r' procs axes = .ok Lr →
        ∀ (atb : Bool) (bid : Int) (cs : List Call), List.count x (loop (fun _ => false) (cs.foldl call (init Lr.dir atb bid))).2.1 =
          if r' = r then 1 else 0 := by
  have hl := lift hr h Dir.elemStart Dir.elemWidth (gridSize colloc)
    (fun ax ha P hP hN => elem_tiles colloc hP hN)
  obtain ⟨hall, huniq⟩ := hl
  have hw : ∀ r Lr, stage1 g2 g3 colloc size r procs axes = .ok Lr → ∀ d ∈ Lr.dir, 1 ≤ d.elemWidth := by
    intro r Lr hs
    obtain ⟨r0, r1⟩ := stage1_range hs
    obtain ⟨Lr', hs', _, _, hb⟩ := hall r r0 r1
    rw [hs] at hs'
    simp only [Res.ok.injEq] at hs'
    subst hs'
    clear hs
    have key : ∀ (Ns : List Int) (ds : List Dir), Blocks Ns (ds.map Dir.elemStart) (ds.map Dir.elemWidth) → ∀ d ∈ ds, 1 ≤ d.elemWidth := by
      intro Ns ds
      induction ds generalizing Ns with
      | nil => simp
      | cons d ds ih =>
        intro hb
        cases hb with
        | cons h1 h2 =>
          intro x hx
          rcases List.mem_cons.1 hx with rfl | hx
          · exact h1.2.1
          · exact ih _ h2 x hx
    exact key _ _ hb
  constructor
  · intro r h0 h1
    obtain ⟨Lr, hs, _⟩ := hall r h0 h1
    exact ⟨Lr, hs, fun atb bid cs => (loop_visits Lr.dir (hw r Lr hs) atb bid cs).1⟩
  · intro x hx
    obtain ⟨r, ⟨h0, h1, Lr0, hs0, hb0⟩, hu⟩ := huniq x hx
    refine ⟨r, ⟨h0, h1⟩, ?_⟩
    intro r' Lr hs atb bid cs
    obtain ⟨_, v1, v2⟩ := loop_visits Lr.dir (hw r' Lr hs) atb bid cs
    obtain ⟨q0, q1⟩ := stage1_range hs
    by_cases hc : r' = r
    · rw [if_pos hc]
      subst hc
      rw [hs] at hs0
      simp only [Res.ok.injEq] at hs0
      subst hs0
      exact v1 x hb0
    · rw [if_neg hc]
      apply v2
      intro hb
      exact hc (hu r' ⟨q0, q1, Lr, hs, hb⟩)

/-- If some element cannot be prepared (`bad`), the loop does not silently skip elements: whenever
`IGAEndElement` reports success, exactly the elements of an undisturbed loop have been visited. -/
theorem C03_failure_reported (bad : List Int → Bool) (e : Elem) (h : (loop bad e).1 = .ok ()) :
    (loop bad e).2.1 = (loop (fun _ => false) e).2.1 := by
  have key : ∀ f x, -1 ≤ x.index → (run bad f x).2.index = -1 → run bad f x = run (fun _ => false) f x := by
    intro f
    induction f with
    | zero => intro x _ _; rfl
    | succ f ih =>
      intro x h0 hx
      unfold run next at hx ⊢
      dsimp only at hx ⊢
      split_ifs at hx ⊢ with h1 h2
      · rfl
      all_goals first
        | (exfalso; dsimp only at hx; omega)
        | (exfalso; assumption)
        | (dsimp only at hx ⊢; rw [ih _ (by dsimp only; omega) hx])
  have h2 : (run bad (e.count.toNat + 1) (begin_ e)).2.index = -1 := by
    by_contra hc
    have : (loop bad e).1 = (end_ (run bad (e.count.toNat + 1) (begin_ e)).2).1 := rfl
    rw [this] at h
    unfold end_ at h
    rw [if_pos hc] at h
    simp at h
  have := key (e.count.toNat + 1) (begin_ e) (by simp [begin_]) h2
  show (run bad (e.count.toNat + 1) (begin_ e)).1 = (run _ (e.count.toNat + 1) (begin_ e)).1
  rw [this]

/-- Non-vacuity: rank 3 of the four-process example of C20/C21. -/
example : ∃ L, stage1 exactGuess2 exactGuess3 false 4 3 [2,2] [exAx0, exAx1] = .ok L ∧
    (loop (fun _ => false) (init L.dir true 7)).2.1 = [[3, 1], [4, 1], [5, 1]] := by
  obtain ⟨L, e, hd, ha⟩ := summary_ok (x := stage1 exactGuess2 exactGuess3 false 4 3 [2,2] [exAx0, exAx1])
    (d := [⟨6, 3, 3, 8, 3, 5, 3, 5, 0, 6, 3, 3, 3, 5⟩, ⟨2, 1, 1, 3, 1, 2, 1, 2, 0, 3, 1, 2, 1, 2⟩])
    (a := [(2, 10, 6), (1, 4, 3)]) (by decide +kernel)
  exact ⟨L, e, by rw [hd]; decide +kernel⟩

/-! ### C23 -/

/-- The element lies on side `b` (direction `b/2`, low/high side `b%2`) of the grid and the form asked for it. -/
def Wanted (e : Elem) (visit : Int → Int → Bool) (b : Int) : Prop :=
  e.id.getD (b / 2).toNat 0 = (if b % 2 = 1 then e.sizes.getD (b / 2).toNat 0 - 1 else 0) ∧ visit (b / 2) (b % 2) = true

theorem scanForm_spec (e : Elem) (visit : Int → Int → Bool) : ∀ (f : Nat) (b0 : Int), -1 ≤ b0 →
    2 * e.dim - b0 ≤ f → 1 ≤ f →
    (∃ b, scanForm e visit f b0 = (some b, b) ∧ b0 < b ∧ b < 2 * e.dim ∧ Wanted e visit b ∧
      ∀ b', b0 < b' → b' < b → ¬ Wanted e visit b') ∨
    (∃ b, scanForm e visit f b0 = (none, b) ∧ (∀ b', b0 < b' → b' < 2 * e.dim → ¬ Wanted e visit b') ∧
      (b0 < 2 * e.dim → b = 2 * e.dim) ∧ (2 * e.dim ≤ b0 → b = b0 + 1)) := by
  intro f
  induction f with
  | zero => intro b0 h0 h1 h2; omega
  | succ f ih =>
    intro b0 h0 h1 _
    unfold scanForm
    dsimp only
    by_cases hb : b0 + 1 < 2 * e.dim
    · rw [if_pos hb]
      have t1 : Int.tdiv (b0+1) 2 = (b0+1)/2 := Int.tdiv_eq_ediv_of_nonneg (by omega)
      have t2 : Int.tmod (b0+1) 2 = (b0+1)%2 := Int.tmod_eq_emod_of_nonneg (by omega)
      have t3 : ((b0+1)%2 ≠ 0) = ((b0+1)%2 = 1) := by apply propext; omega
      rw [t1, t2]
      have hrec : ¬ Wanted e visit (b0+1) → _ := fun hn => ih (b0+1) (by omega) (by push_cast at h1; omega) (by omega)
      have step : ¬ Wanted e visit (b0+1) → 
          ((∃ b, scanForm e visit f (b0+1) = (some b, b) ∧ b0 < b ∧ b < 2 * e.dim ∧ Wanted e visit b ∧
            ∀ b', b0 < b' → b' < b → ¬ Wanted e visit b') ∨
          (∃ b, scanForm e visit f (b0+1) = (none, b) ∧ (∀ b', b0 < b' → b' < 2 * e.dim → ¬ Wanted e visit b') ∧
            (b0 < 2 * e.dim → b = 2 * e.dim) ∧ (2 * e.dim ≤ b0 → b = b0 + 1))) := by
        intro hn
        rcases hrec hn with ⟨b, a1, a2, a3, a4, a5⟩ | ⟨b, a1, a2, a3, a4⟩
        · left
          refine ⟨b, a1, by omega, a3, a4, ?_⟩
          intro b' h h'
          by_cases hc : b' = b0 + 1
          · rw [hc]; exact hn
          · exact a5 b' (by omega) h'
        · right
          refine ⟨b, a1, ?_, fun _ => a3 (by omega), fun h => by omega⟩
          intro b' h h'
          by_cases hc : b' = b0 + 1
          · rw [hc]; exact hn
          · exact a2 b' (by omega) h'
      simp only [t3]
      by_cases c1 : e.id.getD ((b0+1)/2).toNat 0 = (if (b0+1) % 2 = 1 then e.sizes.getD ((b0+1) / 2).toNat 0 - 1 else 0)
      · rw [if_neg (by simpa using c1)]
        by_cases c2 : visit ((b0+1)/2) ((b0+1)%2) = true
        · rw [if_neg (by simpa using c2)]
          left
          exact ⟨b0+1, rfl, by omega, hb, ⟨c1, c2⟩, fun b' h h' => by omega⟩
        · rw [if_pos (by simpa using c2)]
          exact step (fun w => c2 w.2)
      · rw [if_pos c1]
        exact step (fun w => c1 w.1)
    · rw [if_neg hb]
      right
      exact ⟨b0+1, rfl, fun b' h h' => by omega, fun h => by omega, fun h => rfl⟩

theorem wanted_congr {e e' : Elem} {visit : Int → Int → Bool} (h1 : e'.id = e.id) (h2 : e'.sizes = e.sizes) (b : Int) :
    Wanted e' visit b ↔ Wanted e visit b := by unfold Wanted; rw [h1, h2]

theorem nextForm_spec (e : Elem) (visit : Int → Int → Bool) (h : -1 ≤ e.boundaryId) :
    (∃ b, e.boundaryId < b ∧ b < 2 * e.dim ∧ Wanted e visit b ∧ (∀ b', e.boundaryId < b' → b' < b → ¬ Wanted e visit b') ∧
      nextForm e visit = (true, { e with boundaryId := b, atBoundary := true })) ∨
    ((∀ b', e.boundaryId < b' → b' < 2 * e.dim → ¬ Wanted e visit b') ∧ e.boundaryId < 2 * e.dim ∧
      nextForm e visit = (true, { e with boundaryId := 2 * e.dim + 1, atBoundary := false })) ∨
    (2 * e.dim ≤ e.boundaryId ∧ nextForm e visit = (false, { e with boundaryId := -1, atBoundary := false })) := by
  have hd : 0 ≤ e.dim := by unfold Elem.dim; omega
  unfold nextForm
  rcases scanForm_spec e visit (2 * e.dim + 2).toNat e.boundaryId h (by omega) (by omega) with
    ⟨b, a1, a2, a3, a4, a5⟩ | ⟨b, a1, a2, a3, a4⟩
  · left
    exact ⟨b, a2, a3, a4, a5, by rw [a1]⟩
  · rw [a1]
    dsimp only
    by_cases hc : e.boundaryId < 2 * e.dim
    · right; left
      refine ⟨a2, hc, ?_⟩
      rw [a3 hc, if_pos rfl]
    · right; right
      refine ⟨by omega, ?_⟩
      rw [a4 (by omega), if_neg (by omega)]

/-- After the loop: ready for the next element. -/
def Ready (e e' : Elem) : Prop := e' = { e with boundaryId := -1, atBoundary := false }

theorem runForm_last (colloc : Bool) (visit : Int → Int → Bool) (f : Nat) (x : Elem) (hb : 2 * x.dim ≤ x.boundaryId) :
    runForm colloc visit (f+1) x = ([], { x with boundaryId := -1, atBoundary := false }) := by
  have hd : 0 ≤ x.dim := by unfold Elem.dim; omega
  unfold runForm
  rcases nextForm_spec x visit (by omega) with ⟨b, c1, c2, _⟩ | ⟨c1, c2, c3⟩ | ⟨c1, c2⟩
  · omega
  · omega
  · rw [c2]

theorem runForm_gal (visit : Int → Int → Bool) : ∀ (n : Nat) (e : Elem) (f : Nat), -1 ≤ e.boundaryId →
    2 * e.dim - e.boundaryId ≤ n → 1 ≤ 2 * e.dim - e.boundaryId → n + 2 ≤ f →
    ∃ l : List Int, (runForm false visit f e).1 = l.map some ++ [none] ∧ l.Pairwise (· < ·) ∧
      (∀ b, b ∈ l ↔ e.boundaryId < b ∧ b < 2 * e.dim ∧ Wanted e visit b) ∧ Ready e (runForm false visit f e).2 := by
  intro n
  induction n with
  | zero => intro e f h0 h1 h2 h3; omega
  | succ n ih =>
    intro e f h0 h1 h2 h3
    obtain ⟨f, rfl⟩ : ∃ g, f = g + 1 := ⟨f-1, by omega⟩
    rcases nextForm_spec e visit h0 with ⟨b, a1, a2, a3, a4, a5⟩ | ⟨a1, a2, a3⟩ | ⟨a1, a2⟩
    · unfold runForm
      rw [a5]
      dsimp only [endPoint]
      rw [if_pos rfl, if_pos rfl, if_neg (by simp)]
      obtain ⟨l, r1, r2, r3, r4⟩ := ih { e with boundaryId := b, atBoundary := true } f (by dsimp only; omega)
        (by unfold Elem.dim at *; dsimp only; push_cast at h1; omega) (by unfold Elem.dim at *; dsimp only; omega) (by omega)
      refine ⟨b :: l, ?_, ?_, ?_, ?_⟩
      · rw [r1]; rfl
      · rw [List.pairwise_cons]
        refine ⟨?_, r2⟩
        intro x hx
        have := ((r3 x).1 hx).1
        exact this
      · intro x
        rw [List.mem_cons, r3 x]
        have hw := wanted_congr (e := e) (e' := { e with boundaryId := b, atBoundary := true }) (visit := visit) rfl rfl x
        rw [hw]
        constructor
        · rintro (rfl | ⟨h, h', h''⟩)
          · exact ⟨a1, a2, a3⟩
          · dsimp only at h; exact ⟨by omega, h', h''⟩
        · rintro ⟨h, h', h''⟩
          rcases lt_trichotomy x b with hc | hc | hc
          · exact absurd h'' (a4 x h hc)
          · left; exact hc
          · right; exact ⟨hc, h', h''⟩
      · unfold Ready at r4 ⊢
        rw [r4]
    · obtain ⟨f, rfl⟩ : ∃ g, f = g + 1 := ⟨f-1, by omega⟩
      unfold runForm
      rw [a3]
      dsimp only [endPoint]
      rw [if_neg (by simp), if_neg (by simp), runForm_last false visit f _ (by dsimp only [Elem.dim]; omega)]
      refine ⟨[], rfl, by simp, ?_, rfl⟩
      intro b
      simp only [List.not_mem_nil, false_iff]
      rintro ⟨h, h', h''⟩
      exact a1 b h h' h''
    · omega

/-- **C23.** Starting a new element, the form loop reports the sides `b = 2*direction+side` on which the element
lies and which the form asked for, each once and in increasing order, then the interior once, and stops ready for
the next element. -/
theorem C23_form_loop (visit : Int → Int → Bool) (e : Elem) (h : e.boundaryId = -1) (f : Nat)
    (hf : 2 * e.dim + 3 ≤ f) :
    ∃ l : List Int, (runForm false visit f e).1 = l.map some ++ [none] ∧ l.Pairwise (· < ·) ∧
      (∀ b, b ∈ l ↔ 0 ≤ b ∧ b < 2 * e.dim ∧ Wanted e visit b) ∧ Ready e (runForm false visit f e).2 := by
  have hd : 0 ≤ e.dim := by unfold Elem.dim; omega
  obtain ⟨l, a, b, c, d⟩ := runForm_gal visit (2 * e.dim + 1).toNat e f (by omega) (by omega) (by omega) (by omega)
  refine ⟨l, a, b, ?_, d⟩
  intro x
  rw [c x, h]
  constructor
  · rintro ⟨p, q⟩; exact ⟨by omega, q⟩
  · rintro ⟨p, q⟩; exact ⟨by omega, q⟩

/-- **C23**, collocation: exactly one visit, on the first side that qualifies, or in the interior if none does. -/
theorem C23_form_loop_collocation (visit : Int → Int → Bool) (e : Elem) (h : e.boundaryId = -1) (f : Nat)
    (hf : 2 ≤ f) (hd : 1 ≤ e.dim) :
    Ready e (runForm true visit f e).2 ∧
    ((∃ b, (runForm true visit f e).1 = [some b] ∧ 0 ≤ b ∧ b < 2 * e.dim ∧ Wanted e visit b ∧
        ∀ b', 0 ≤ b' → b' < b → ¬ Wanted e visit b') ∨
      ((runForm true visit f e).1 = [none] ∧ ∀ b', 0 ≤ b' → b' < 2 * e.dim → ¬ Wanted e visit b')) := by
  obtain ⟨f, rfl⟩ : ∃ g, f = g + 1 + 1 := ⟨f-2, by omega⟩
  unfold runForm
  rcases nextForm_spec e visit (by omega) with ⟨b, a1, a2, a3, a4, a5⟩ | ⟨a1, a2, a3⟩ | ⟨a1, a2⟩
  · rw [a5]
    dsimp only [endPoint]
    rw [if_pos rfl, if_pos rfl, if_pos rfl, runForm_last true visit f _ (by dsimp only [Elem.dim]; omega)]
    refine ⟨rfl, Or.inl ⟨b, rfl, by omega, a2, a3, ?_⟩⟩
    intro b' h' h''
    exact a4 b' (by omega) h''
  · rw [a3]
    dsimp only [endPoint]
    rw [if_neg (by simp), if_neg (by simp), runForm_last true visit f _ (by dsimp only [Elem.dim]; omega)]
    refine ⟨rfl, Or.inr ⟨rfl, ?_⟩⟩
    intro b' h' h''
    exact a1 b' (by omega) h''
  · omega

/-- Non-vacuity: a corner element of a 3×1 grid, all sides requested except the low side of direction 1. -/
example : runForm false (fun i s => !(i == 1 && s == 0)) 7 ⟨[0,0], [3,1], [3,1], [2,0], 2, 3, -1, false⟩ =
    ([some 1, some 3, none], ⟨[0,0], [3,1], [3,1], [2,0], 2, 3, -1, false⟩) := by decide +kernel
example : (runForm true (fun _ _ => true) 7 ⟨[0,0], [3,1], [3,1], [2,0], 2, 3, -1, false⟩).1 = [some 1] := by
  decide +kernel

/-! ### C24 -/

theorem range_block {α : Type} (n : Nat) (hn : 1 ≤ n) (g : Nat → Nat → α) : ∀ m : Nat,
    ((List.range m).flatMap fun j => (List.range n).map fun i => g i j) =
      (List.range (m * n)).map fun a => g (a % n) (a / n) := by
  intro m
  induction m with
  | zero => simp
  | succ m ih =>
    rw [List.range_succ, List.flatMap_append, ih, Nat.succ_mul, List.range_add, List.map_append]
    congr 1
    rw [List.flatMap_singleton, List.map_map]
    apply List.map_congr_left
    intro i hi
    rw [List.mem_range] at hi
    dsimp only [Function.comp_apply]
    rw [Nat.mul_comm m n, Nat.mul_add_mod, Nat.mod_eq_of_lt hi, Nat.mul_add_div (by omega), Nat.div_eq_of_lt hi]
    rfl

/-- Index of node `(x,y,z)` in the local array of the ghosted box with first node `(g0,g1,g2)` and
`w0 × w1 × …` nodes. -/
def ghostIndex (g0 g1 g2 w0 w1 x y z : Int) : Int := (x - g0) + w0 * ((y - g1) + w1 * (z - g2))

theorem ghostIndex_range {g0 g1 g2 w0 w1 w2 x y z : Int} (hx : g0 ≤ x ∧ x < g0 + w0) (hy : g1 ≤ y ∧ y < g1 + w1)
    (hz : g2 ≤ z ∧ z < g2 + w2) :
    0 ≤ ghostIndex g0 g1 g2 w0 w1 x y z ∧ ghostIndex g0 g1 g2 w0 w1 x y z < w0 * w1 * w2 := by
  have h : InBox [w0, w1, w2] [x - g0, y - g1, z - g2] :=
    .cons (by omega) (.cons (by omega) (.cons (by omega) .nil))
  have := lin_range h
  simp only [lin, prod] at this
  unfold ghostIndex
  constructor
  · have h1 := this.1; ring_nf at h1 ⊢; exact h1
  · have h1 := this.2; ring_nf at h1 ⊢; exact h1

theorem ghostIndex_inj {g0 g1 g2 w0 w1 w2 x y z x' y' z' : Int} (hx : g0 ≤ x ∧ x < g0 + w0) (hy : g1 ≤ y ∧ y < g1 + w1)
    (hz : g2 ≤ z ∧ z < g2 + w2) (hx' : g0 ≤ x' ∧ x' < g0 + w0) (hy' : g1 ≤ y' ∧ y' < g1 + w1)
    (hz' : g2 ≤ z' ∧ z' < g2 + w2) (h : ghostIndex g0 g1 g2 w0 w1 x y z = ghostIndex g0 g1 g2 w0 w1 x' y' z') :
    x = x' ∧ y = y' ∧ z = z' := by
  have b : InBox [w0, w1, w2] [x - g0, y - g1, z - g2] :=
    .cons (by omega) (.cons (by omega) (.cons (by omega) .nil))
  have b' : InBox [w0, w1, w2] [x' - g0, y' - g1, z' - g2] :=
    .cons (by omega) (.cons (by omega) (.cons (by omega) .nil))
  have e : lin [w0, w1, w2] [x - g0, y - g1, z - g2] = lin [w0, w1, w2] [x' - g0, y' - g1, z' - g2] := by
    simp only [lin]
    unfold ghostIndex at h
    linarith
  have c := coords_lin b
  rw [e, coords_lin b'] at c
  simp only [List.cons.injEq, and_true] at c
  omega

/-- The `nen` basis functions of the element are inside the ghosted range of the direction (what C21 provides). -/
def Inside (d : CDir) : Prop := 1 ≤ d.nen ∧ d.gstart ≤ d.offset ∧ d.offset + d.nen ≤ d.gstart + d.gwidth

theorem closure_eq (d0 d1 d2 : CDir) (h0 : 1 ≤ d0.nen) (h1 : 1 ≤ d1.nen) :
    closure d0 d1 d2 = (List.range (d2.nen * (d1.nen * d0.nen))).map fun a =>
      ghostIndex d0.gstart d1.gstart d2.gstart d0.gwidth d1.gwidth
        (d0.offset + (a % d0.nen : Nat)) (d1.offset + (a / d0.nen % d1.nen : Nat)) (d2.offset + (a / d0.nen / d1.nen : Nat)) := by
  unfold closure
  simp only [range_block d0.nen h0]
  rw [range_block (d1.nen * d0.nen) (Nat.mul_pos h1 h0)]
  apply List.map_congr_left
  intro a _
  rw [Nat.mod_mul_left_mod, Nat.mul_comm d1.nen d0.nen, Nat.mod_mul_right_div_self, Nat.div_div_eq_div_mul]
  unfold ghostIndex
  ring

/-- **C24.** Let the basis functions of the element lie inside the ghosted box (C21).  The closure has
`(p0+1)(p1+1)(p2+1)` entries, entry `ia + ja(p0+1) + ka(p0+1)(p1+1)` is the local index of node
`(first0+ia, first1+ja, first2+ka)`, all entries are inside the local array and no two are equal. -/
theorem C24_closure (d0 d1 d2 : CDir) (h0 : Inside d0) (h1 : Inside d1) (h2 : Inside d2) :
    (closure d0 d1 d2).length = d0.nen * d1.nen * d2.nen ∧
    (∀ ia ja ka : Nat, ia < d0.nen → ja < d1.nen → ka < d2.nen →
      (closure d0 d1 d2)[ia + ja * d0.nen + ka * (d0.nen * d1.nen)]? =
        some (ghostIndex d0.gstart d1.gstart d2.gstart d0.gwidth d1.gwidth (d0.offset + ia) (d1.offset + ja) (d2.offset + ka))) ∧
    (∀ i ∈ closure d0 d1 d2, 0 ≤ i ∧ i < d0.gwidth * d1.gwidth * d2.gwidth) ∧
    (closure d0 d1 d2).Nodup := by
  obtain ⟨n0, a0, b0⟩ := h0
  obtain ⟨n1, a1, b1⟩ := h1
  obtain ⟨n2, a2, b2⟩ := h2
  rw [closure_eq _ _ _ n0 n1]
  have hdiv : ∀ a, a < d2.nen * (d1.nen * d0.nen) → a % d0.nen < d0.nen ∧ a / d0.nen % d1.nen < d1.nen ∧ a / d0.nen / d1.nen < d2.nen := by
    intro a ha
    refine ⟨Nat.mod_lt _ n0, Nat.mod_lt _ n1, ?_⟩
    rw [Nat.div_div_eq_div_mul, Nat.div_lt_iff_lt_mul (Nat.mul_pos n0 n1), Nat.mul_comm d0.nen]
    exact ha
  have inr : ∀ d : CDir, d.gstart ≤ d.offset → d.offset + d.nen ≤ d.gstart + d.gwidth → ∀ t : Nat, t < d.nen →
      d.gstart ≤ d.offset + (t:Int) ∧ d.offset + (t:Int) < d.gstart + d.gwidth := by
    intro d h h' t ht; omega
  have i0 := inr d0 a0 b0
  have i1 := inr d1 a1 b1
  have i2 := inr d2 a2 b2
  refine ⟨by rw [List.length_map, List.length_range]; ring, ?_, ?_, ?_⟩
  · intro ia ja ka hi hj hk
    have e1 : (ia + ja * d0.nen + ka * (d0.nen * d1.nen)) % d0.nen = ia := by
      rw [show ia + ja * d0.nen + ka * (d0.nen * d1.nen) = ia + d0.nen * (ja + ka * d1.nen) by ring,
        Nat.add_mul_mod_self_left, Nat.mod_eq_of_lt hi]
    have e2 : (ia + ja * d0.nen + ka * (d0.nen * d1.nen)) / d0.nen = ja + d1.nen * ka := by
      rw [show ia + ja * d0.nen + ka * (d0.nen * d1.nen) = ia + d0.nen * (ja + d1.nen * ka) by ring,
        Nat.add_mul_div_left _ _ n0, Nat.div_eq_of_lt hi, zero_add]
    have hlt : ia + ja * d0.nen + ka * (d0.nen * d1.nen) < d2.nen * (d1.nen * d0.nen) := by
      have : ja + d1.nen * ka < d1.nen * d2.nen := by
        calc ja + d1.nen * ka < d1.nen + d1.nen * ka := by omega
          _ = d1.nen * (ka + 1) := by ring
          _ ≤ d1.nen * d2.nen := Nat.mul_le_mul_left _ hk
      calc ia + ja * d0.nen + ka * (d0.nen * d1.nen) < d0.nen + ja * d0.nen + ka * (d0.nen * d1.nen) := by omega
        _ = d0.nen * ((ja + d1.nen * ka) + 1) := by ring
        _ ≤ d0.nen * (d1.nen * d2.nen) := Nat.mul_le_mul_left _ this
        _ = d2.nen * (d1.nen * d0.nen) := by ring
    rw [List.getElem?_map, List.getElem?_range hlt, Option.map_some, e1, e2, Nat.add_mul_mod_self_left,
      Nat.mod_eq_of_lt hj, Nat.add_mul_div_left _ _ n1, Nat.div_eq_of_lt hj, zero_add]
  · intro i hi
    rw [List.mem_map] at hi
    obtain ⟨a, ha, rfl⟩ := hi
    rw [List.mem_range] at ha
    obtain ⟨x, y, z⟩ := hdiv a ha
    exact ghostIndex_range (i0 _ x) (i1 _ y) (i2 _ z)
  · rw [List.nodup_map_iff_inj_on List.nodup_range]
    intro a ha b hb hab
    rw [List.mem_range] at ha hb
    obtain ⟨x, y, z⟩ := hdiv a ha
    obtain ⟨x', y', z'⟩ := hdiv b hb
    obtain ⟨p, q, r⟩ := ghostIndex_inj (i0 _ x) (i1 _ y) (i2 _ z) (i0 _ x') (i1 _ y') (i2 _ z') hab
    have e1 : a % d0.nen = b % d0.nen := by exact_mod_cast add_left_cancel p
    have e2 : a / d0.nen % d1.nen = b / d0.nen % d1.nen := by exact_mod_cast add_left_cancel q
    have e3 : a / d0.nen / d1.nen = b / d0.nen / d1.nen := by exact_mod_cast add_left_cancel r
    have e4 : a / d0.nen = b / d0.nen := by
      rw [← Nat.div_add_mod (a / d0.nen) d1.nen, ← Nat.div_add_mod (b / d0.nen) d1.nen, e2, e3]
    rw [← Nat.div_add_mod a d0.nen, ← Nat.div_add_mod b d0.nen, e1, e4]

/-- The row index used with collocation is the local index of the node of the collocation point, inside the local
array. -/
theorem C24_collocation_row (d0 d1 d2 : CDir) (h0 : d0.gstart ≤ d0.id ∧ d0.id < d0.gstart + d0.gwidth)
    (h1 : d1.gstart ≤ d1.id ∧ d1.id < d1.gstart + d1.gwidth) (h2 : d2.gstart ≤ d2.id ∧ d2.id < d2.gstart + d2.gwidth) :
    rowmap d0 d1 d2 = ghostIndex d0.gstart d1.gstart d2.gstart d0.gwidth d1.gwidth d0.id d1.id d2.id ∧
    0 ≤ rowmap d0 d1 d2 ∧ rowmap d0 d1 d2 < d0.gwidth * d1.gwidth * d2.gwidth := by
  have e : rowmap d0 d1 d2 = ghostIndex d0.gstart d1.gstart d2.gstart d0.gwidth d1.gwidth d0.id d1.id d2.id := by
    unfold rowmap ghostIndex; ring
  rw [e]
  exact ⟨rfl, ghostIndex_range h0 h1 h2⟩

/-- The hypothesis `Inside` of C24 is what the setup delivers: for every owned element `x` of a direction whose
layout satisfies C21, the basis offset used by the closure (`span[x]-p`, or `span-p-shift` with collocation)
gives a block inside the ghosted range. -/
theorem C24_inside_after_setup (colloc : Bool) (ax : Axis K) (d : Dir) (h : GhostOK colloc ax d) (hp : 1 ≤ ax.p)
    (x : Int) (h0 : d.elemStart ≤ x) (h1 : x < d.elemStart + d.elemWidth) :
    ∃ k, (if colloc then grevSpan ax (x + d.nodeShift) else spanAt ax x) = .ok k ∧
      Inside ⟨(ax.p + 1).toNat, k - ax.p - d.nodeShift, x, d.nodeGstart, d.nodeGwidth⟩ := by
  obtain ⟨k, hk, hc⟩ := h.closure x h0 h1
  refine ⟨k, hk, ?_⟩
  have a := hc (k - ax.p) (by omega) (by omega)
  have b := hc k (by omega) (by omega)
  unfold Inside
  dsimp only
  omega

/-- Non-vacuity: degree 2 × degree 1 in a 5 × 3 ghosted box starting at node (3,1). -/
example : closure ⟨3, 4, 4, 3, 5⟩ ⟨2, 1, 1, 1, 3⟩ ⟨1, 0, 0, 0, 1⟩ = [1, 2, 3, 6, 7, 8] ∧
    Inside ⟨3, 4, 4, 3, 5⟩ ∧ Inside ⟨2, 1, 1, 1, 3⟩ ∧ Inside ⟨1, 0, 0, 0, 1⟩ := by
  refine ⟨by decide, ?_⟩
  unfold Inside; decide

/-! ### C25 -/

/-- **C25 fails**: whatever the element, a caller who asks only for the row map gets back the memory unchanged. -/
theorem C25_get_indices_refuted (neq nen : Int) (row col junk : List Int) :
    (getIndices neq row nen col ⟨none, some junk, none, none⟩).rowmap = some junk := rfl

/-- What does hold of **C25**: the two sizes and the column map are stored exactly through the non-null pointers.
Missing: the row map is never stored (see `C25_get_indices_refuted`). -/
theorem C25_get_indices_partial (neq nen : Int) (row col : List Int) (o : Outs) :
    let r := getIndices neq row nen col o
    r.neq = o.neq.map (fun _ => neq) ∧ r.nen = o.nen.map (fun _ => nen) ∧ r.colmap = o.colmap.map (fun _ => col) := by
  obtain ⟨a, b, c, d⟩ := o
  cases a <;> cases c <;> cases d <;> simp [getIndices, put]

example : getIndices 1 [9] 3 [4,5,6] ⟨some 0, some [], some 0, some []⟩ = ⟨some 1, some [], some 3, some [4,5,6]⟩ := by
  decide

/-! ### C65 -/

/-- Entries per point of each array (petigaelem.c:207-237). -/
def stride (z : PSizes) : Arr → Nat
  | .basis k => z.nen * z.dim^k
  | .shape k => z.nen * z.nsd^k
  | .mapU k => z.dim * z.nsd^k
  | .mapX k => z.nsd * z.dim^k

/-- The data of point `q` in array `a`. -/
def dataOf (z : PSizes) (q : Nat) (a : Arr) : Ptr := ⟨a, q * stride z a⟩

/-- Pointers at point `q` according to the increments of the code. -/
def ptrAt (z : PSizes) (k : Nat) (q : Nat) : PPtr := (ptrNext z k)^[q] (ptrStart z k)

theorem ptrAt_eq (z : PSizes) (k q : Nat) : ptrAt z k q =
    { basis := ⟨(ptrStart z k).basis.arr, q * (z.nen * z.dim^k)⟩,
      shape := ⟨(ptrStart z k).shape.arr, q * (z.nen * z.nsd^k)⟩,
      mapU := ⟨(ptrStart z k).mapU.arr, q * (z.dim * z.nsd^k)⟩,
      mapX := ⟨(ptrStart z k).mapX.arr, q * (z.nsd * z.dim^k)⟩ } := by
  induction q with
  | zero =>
    simp only [ptrAt, Function.iterate_zero, id, Nat.zero_mul]
    unfold ptrStart
    split_ifs <;> rfl
  | succ q ih =>
    unfold ptrAt at ih ⊢
    rw [Function.iterate_succ_apply', ih]
    unfold ptrNext
    simp only [Nat.succ_mul]

theorem runPoint_eq (z : PSizes) (k : Nat) : ∀ (n f q : Nat) (s : PIter), s.index = (q:Int) → s.ptr = ptrAt z k q →
    q + 1 + n = z.count → n < f →
    (runPoint z k f s).1 = (List.range n).map (fun (j : Nat) => ptrAt z k (q + 1 + j)) ∧ (runPoint z k f s).2.index = -1 := by
  intro n
  induction n with
  | zero =>
    intro f q s hi hp hc hf
    obtain ⟨f, rfl⟩ : ∃ g, f = g + 1 := ⟨f-1, by omega⟩
    unfold runPoint nextPoint
    dsimp only
    rw [if_neg (by omega), if_pos (by omega)]
    exact ⟨rfl, rfl⟩
  | succ n ih =>
    intro f q s hi hp hc hf
    obtain ⟨f, rfl⟩ : ∃ g, f = g + 1 := ⟨f-1, by omega⟩
    unfold runPoint nextPoint
    dsimp only
    rw [if_neg (by omega), if_neg (by omega)]
    dsimp only
    have hn : ptrNext z k s.ptr = ptrAt z k (q+1) := by
      rw [hp]; unfold ptrAt; rw [Function.iterate_succ_apply']
    obtain ⟨a, b⟩ := ih f (q+1) ⟨s.index + 1, ptrNext z k s.ptr⟩ (by dsimp only; push_cast; omega) hn (by omega) (by omega)
    refine ⟨?_, b⟩
    rw [a, hn, List.range_succ_eq_map (n := n), List.map_cons (l := List.map _ _), List.map_map]
    congr 1
    apply List.map_congr_left
    intro j _
    dsimp only [Function.comp_apply]
    congr 1
    omega

/-- The point loop visits points `0,…,count-1` once each, with the pointers advanced once per point. -/
theorem point_loop (z : PSizes) (k : Nat) (hz : 1 ≤ z.count) (junk : PPtr) :
    (runPoint z k (z.count + 1) ⟨-1, junk⟩).1 = (List.range z.count).map (fun (q : Nat) => ptrAt z k q) ∧
    (runPoint z k (z.count + 1) ⟨-1, junk⟩).2.index = -1 := by
  unfold runPoint nextPoint
  dsimp only
  rw [if_pos (by norm_num)]
  dsimp only
  obtain ⟨n, hn⟩ : ∃ n, z.count = n + 1 := ⟨z.count - 1, by omega⟩
  obtain ⟨a, b⟩ := runPoint_eq z k n z.count 0 ⟨0, ptrStart z k⟩ rfl rfl (by omega) (by omega)
  refine ⟨?_, b⟩
  rw [a]
  rw [hn, List.range_succ_eq_map, List.map_cons, List.map_map]
  congr 1
  apply List.map_congr_left
  intro j _
  dsimp only [Function.comp_apply]
  congr 1
  omega

/-- **C65**, when the geometry has the dimension of the parametric space (or there is none): the loop visits every
point once and at point `q` each of the pointers the user sees addresses the data of point `q` in the array it
belongs to.  Missing: geometries with `nsd ≠ dim` (see `C65_manifold_refuted`). -/
theorem C65_point_data_partial (z : PSizes) (k : Nat) (hz : 1 ≤ z.count) (hd : z.nsd = z.dim) (junk : PPtr) :
    let r := runPoint z k (z.count + 1) ⟨-1, junk⟩
    r.1.length = z.count ∧ r.2.index = -1 ∧
    ∀ q : Nat, q < z.count → ∃ p, r.1[q]? = some p ∧ p.basis = dataOf z q (.basis k) ∧
      p.shape = dataOf z q (if z.geometry then .shape k else .basis k) ∧
      p.mapU = dataOf z q (.mapU k) ∧ p.mapX = dataOf z q (if z.geometry then .mapX k else .mapU k) := by
  obtain ⟨a, b⟩ := point_loop z k hz junk
  dsimp only
  refine ⟨by rw [a]; simp, b, ?_⟩
  intro q hq
  refine ⟨ptrAt z k q, by rw [a, List.getElem?_map, List.getElem?_range hq]; rfl, ?_⟩
  rw [ptrAt_eq]
  unfold dataOf stride ptrStart
  cases hg : z.geometry <;> simp [hd]

/-- Regardless of dimensions the loop visits each point once, with the right `basis`, `mapU` and (with a geometry)
`mapX` data. -/
theorem C65_point_data_any_dim_partial (z : PSizes) (k : Nat) (hz : 1 ≤ z.count) (junk : PPtr) :
    let r := runPoint z k (z.count + 1) ⟨-1, junk⟩
    r.1.length = z.count ∧ r.2.index = -1 ∧
    ∀ q : Nat, q < z.count → ∃ p, r.1[q]? = some p ∧ p.basis = dataOf z q (.basis k) ∧
      p.mapU = dataOf z q (.mapU k) ∧ (z.geometry = true → p.mapX = dataOf z q (.mapX k)) := by
  obtain ⟨a, b⟩ := point_loop z k hz junk
  dsimp only
  refine ⟨by rw [a]; simp, b, ?_⟩
  intro q hq
  refine ⟨ptrAt z k q, by rw [a, List.getElem?_map, List.getElem?_range hq]; rfl, ?_⟩
  rw [ptrAt_eq]
  unfold dataOf stride ptrStart
  cases hg : z.geometry <;> simp

/-- **C65 fails** for a surface in space (any `dim ≠ nsd` with a geometry): from the second point on, the shape
function derivatives the user sees are not those of that point; they are taken from the array of parametric
derivatives with the wrong stride, past its end at the last point when `dim < nsd`. -/
theorem C65_manifold_refuted (nen dim nsd count : Nat) (hn : 1 ≤ nen) (hd : 1 ≤ dim) (hs : dim < nsd) (hc : 2 ≤ count)
    (junk : PPtr) :
    let z : PSizes := ⟨nen, dim, nsd, count, true⟩
    ∀ q : Nat, 1 ≤ q → q < count → ∃ p, (runPoint z 1 (count + 1) ⟨-1, junk⟩).1[q]? = some p ∧
      p.shape ≠ dataOf z q (.shape 1) ∧ p.shape ≠ dataOf z q (.basis 1) ∧
      p.shape.arr = .basis 1 ∧
      (q = count - 1 → count * stride z (.basis 1) < p.shape.off + nen * nsd) := by
  dsimp only
  intro q h1 h2
  obtain ⟨a, b⟩ := point_loop ⟨nen, dim, nsd, count, true⟩ 1 (by dsimp only; omega) junk
  refine ⟨ptrAt ⟨nen, dim, nsd, count, true⟩ 1 q, by rw [a, List.getElem?_map, List.getElem?_range h2]; rfl, ?_⟩
  rw [ptrAt_eq]
  unfold dataOf stride ptrStart
  have hne : ¬ dim = nsd := by omega
  dsimp only
  rw [if_neg (by simp [hne])]
  simp only [pow_one, ne_eq, Ptr.mk.injEq, reduceCtorEq, false_and, not_false_eq_true, true_and]
  have key : nen * dim < nen * nsd := Nat.mul_lt_mul_of_pos_left hs hn
  refine ⟨?_, ?_⟩
  · intro h
    have := Nat.eq_of_mul_eq_mul_left (by omega : 0 < q) h
    omega
  · intro hq
    obtain ⟨c, rfl⟩ : ∃ c, count = c + 1 := ⟨count - 1, by omega⟩
    have : q = c := by omega
    subst this
    calc (q+1) * (nen * dim) < (q+1) * (nen * nsd) := Nat.mul_lt_mul_of_pos_left key (by omega)
      _ = q * (nen * nsd) + nen * nsd := by ring

example : (runPoint ⟨4, 2, 2, 3, true⟩ 1 4 ⟨-1, ptrStart ⟨4, 2, 2, 3, true⟩ 1⟩).1.map (fun p => p.shape) =
    [⟨.shape 1, 0⟩, ⟨.shape 1, 8⟩, ⟨.shape 1, 16⟩] := by decide

end PetIGA.Elem
