import Verif.Lemmas.IOGeom
import Verif.Props.Assemble
import Mathlib.Tactic.NormNum
/-! Property theorems about geometry and property files: C46, and C73 (vectors). -/
set_option linter.unusedSectionVars false
namespace PetIGA.IO
open PetIGA.Ax PetIGA.Lay PetIGA.Grid PetIGA.Spec PetIGA.Part PetIGA.Asm

variable {K V : Type} [Field K] [LinearOrder K] [IsStrictOrderedRing K]
variable {g2 g2' : Guess2} {g3 g3' : Guess3} {colloc colloc' : Bool} {size size' : Int} {procs procs' : List Int}
  {axes axs axes' axs' : List (Axis K)} {Ls Ls' : List (Layout K)}

/-- Number of control points of each direction. -/
def netSizes (axs : List (Axis K)) : List Int := axs.map fun ax => ax.m - ax.p

/-! ### C46 -/

theorem fst_same {ps qs : List (Piece K)} (F : List.Forall₂ (fun q q' => q'.1 = q.1) ps qs) :
    qs.map Prod.fst = ps.map Prod.fst := by
  induction F with
  | nil => rfl
  | cons h _ ih => rw [List.map_cons, List.map_cons, h, ih]

/-- C46: what a program writes with `IGASaveGeometry` another one reads with `IGALoadGeometry`, whatever the numbers of
processes of the two: control point by control point the same coordinates and weights, also for zero weights, and for an
object without weights the weight 1.  The flag `rational` is set iff two weights differ by more than the tolerance.
Missing: with empty first or last knot intervals (`Condition`, `EndSpans`) the boxes of the processes need not cover the
control net; and the flag is not "not constant", see `C46_rational_flag_refuted`. -/
theorem C46_geometry_round_trip_partial (S : Setup g2 g3 colloc size procs axes axs Ls)
    (hE : colloc = true → ∀ ax ∈ axs, EndSpans ax) (S' : Setup g2' g3' colloc' size' procs' axes' axs' Ls')
    (hE' : colloc' = true → ∀ ax ∈ axs', EndSpans ax) (hnet : netSizes axs' = netSizes axs)
    (skip : Bool) (mem mem' : Int → K) (tol : K) {nsd : Nat} (hn : 1 ≤ nsd) {coord : List Int → Nat → K} {w : List Int → K}
    {ps ps' : List (Piece K)} (hps : ps.map Prod.fst = Ls) (hg : ∀ q ∈ ps, HasGeometry nsd coord w q)
    (hps' : ps'.map Prod.fst = Ls') (rest : File K) :
    ∃ file, saveGeometry skip mem nsd ps = .ok file ∧
    ∃ qs, loadGeometry skip mem' tol nsd ps' (file ++ rest) = .ok (qs, rest) ∧ qs.map Prod.fst = Ls' ∧
      ∀ q ∈ qs, HasGeometry nsd coord w q ∧ q.2.W ≠ none ∧
        (q.2.rational = true ↔ ∃ x y, InBox (netSizes axs) x ∧ InBox (netSizes axs) y ∧ w x - w y > tol) := by
  have H : IOGrid (netSizes axs) (ioWorld (ps.map Prod.fst)) := by rw [hps]; exact io_grid S hE
  have H' : IOGrid (netSizes axs) (ioWorld (ps'.map Prod.fst)) := by rw [hps', ← hnet]; exact io_grid S' hE'
  obtain ⟨v, e, hv⟩ := saveGeometry_ok H skip mem hn hg
  obtain ⟨qs, e', F⟩ := loadGeometry_ok H' skip mem' tol hn hv rest
  refine ⟨_, e, qs, e', ?_, ?_⟩
  · rw [← hps']
    exact fst_same (F.imp fun _ _ h => h.1)
  · intro q hq
    obtain ⟨q0, -, h⟩ := forall2_mem_right F _ hq
    exact ⟨h.2.1, h.2.2.2.2.2.2, h.2.2.1⟩

/-- C46: the file depends on the control net only, not on the number of processes. -/
theorem C46_file_process_independent_partial (S : Setup g2 g3 colloc size procs axes axs Ls)
    (hE : colloc = true → ∀ ax ∈ axs, EndSpans ax) (S' : Setup g2' g3' colloc' size' procs' axes' axs' Ls')
    (hE' : colloc' = true → ∀ ax ∈ axs', EndSpans ax) (hnet : netSizes axs' = netSizes axs)
    (skip : Bool) (mem mem' : Int → K) {nsd : Nat} (hn : 1 ≤ nsd) {coord : List Int → Nat → K} {w : List Int → K}
    {ps ps' : List (Piece K)} (hps : ps.map Prod.fst = Ls) (hg : ∀ q ∈ ps, HasGeometry nsd coord w q)
    (hps' : ps'.map Prod.fst = Ls') (hg' : ∀ q ∈ ps', HasGeometry nsd coord w q) :
    saveGeometry skip mem' nsd ps' = saveGeometry skip mem nsd ps := by
  have H : IOGrid (netSizes axs) (ioWorld (ps.map Prod.fst)) := by rw [hps]; exact io_grid S hE
  have H' : IOGrid (netSizes axs) (ioWorld (ps'.map Prod.fst)) := by rw [hps', ← hnet]; exact io_grid S' hE'
  obtain ⟨v, e, hv⟩ := saveGeometry_ok H skip mem hn hg
  obtain ⟨v', e', hv'⟩ := saveGeometry_ok H' skip mem' hn hg'
  rw [e, e', vecView_congr (v := v') (v' := v) H.pos skip fun x c hx hc => by rw [hv' x c hx hc, hv x c hx hc]]

/-- C46, the contents of the file: control point `x` takes `nsd+1` numbers from position `(nsd+1)*(x₀ + n₀*(x₁ + …))`, its
coordinates times its weight (times 1 if the weight is 0) and its weight. -/
theorem C46_file_contents_partial (S : Setup g2 g3 colloc size procs axes axs Ls)
    (hE : colloc = true → ∀ ax ∈ axs, EndSpans ax) (mem : Int → K) {nsd : Nat} (hn : 1 ≤ nsd)
    {coord : List Int → Nat → K} {w : List Int → K} {ps : List (Piece K)} (hps : ps.map Prod.fst = Ls)
    (hg : ∀ q ∈ ps, HasGeometry nsd coord w q) :
    ∃ file : List K, saveGeometry true mem nsd ps = .ok (file.map Tok.num) ∧
      (file.length : Int) = (nsd+1) * prod (netSizes axs) ∧
      ∀ x, InBox (netSizes axs) x →
        (∀ c, c < nsd → file[((nsd+1) * flat (netSizes axs) x + c).toNat]? =
          some (coord x c * if w x = 0 then 1 else w x)) ∧
        file[((nsd+1) * flat (netSizes axs) x + nsd).toNat]? = some (w x) := by
  have H : IOGrid (netSizes axs) (ioWorld (ps.map Prod.fst)) := by rw [hps]; exact io_grid S hE
  obtain ⟨v, e, hv⟩ := saveGeometry_ok H true mem hn hg
  have hP := prod_nonneg H
  have hPn : 0 ≤ ((nsd+1:Nat):Int) * prod (netSizes axs) := Int.mul_nonneg (by omega) (by omega)
  have entry : ∀ x, InBox (netSizes axs) x → ∀ c : Nat, c < nsd+1 →
      ((List.range (((nsd+1:Nat):Int) * prod (netSizes axs)).toNat).map fun (k : Nat) => v k)[((nsd+1) * flat (netSizes axs) x + c).toNat]?
        = some (homogeneous nsd coord w x c) := by
    intro x hx c hc
    have hr := flat_range hx
    obtain ⟨a, ha⟩ : ∃ a : Nat, flat (netSizes axs) x = a := ⟨(flat (netSizes axs) x).toNat, by omega⟩
    have := hv x c hx hc
    rw [ha] at this hr
    rw [ha]
    have e1 : ((nsd:Int)+1) * (a:Int) + (c:Int) = ((c + (nsd+1) * a : Nat) : Int) := by push_cast; ring
    have e2 : c + (nsd+1) * a < (((nsd+1:Nat):Int) * prod (netSizes axs)).toNat := by
      have : (nsd+1) * (a+1) ≤ (((nsd+1:Nat):Int) * prod (netSizes axs)).toNat := by
        have : (((nsd+1) * (a+1) : Nat) : Int) ≤ ((nsd+1:Nat):Int) * prod (netSizes axs) := by
          push_cast
          exact mul_le_mul_of_nonneg_left (by omega) (by omega)
        omega
      calc c + (nsd+1) * a < (nsd+1) * (a+1) := by rw [Nat.mul_add]; omega
        _ ≤ _ := this
    rw [e1, Int.toNat_natCast, List.getElem?_map, List.getElem?_range e2, Option.map_some, ← this]
    congr 2
    push_cast; ring
  refine ⟨(List.range (((nsd+1:Nat):Int) * prod (netSizes axs)).toNat).map fun (k : Nat) => v k, ?_, ?_, fun x hx => ⟨fun c hc => ?_, ?_⟩⟩
  · rw [e]
    unfold vecView
    rw [if_pos rfl, List.nil_append]
    congr 1
    rw [show (fun (k:Nat) => Tok.num (v (k:Int))) = Tok.num ∘ fun (k : Nat) => v (k:Int) from rfl, ← List.map_map]
  · rw [List.length_map, List.length_range]; push_cast at hPn ⊢; omega
  · rw [entry x hx c (by omega)]
    unfold homogeneous
    rw [if_pos hc]
    by_cases h : w x = 0
    · simp [h]
    · rw [if_pos (abs_pos.2 h), if_neg h]
  · rw [entry x hx nsd (by omega)]
    unfold homogeneous
    rw [if_neg (by omega)]

/-- C46 for the properties of the control points (`IGASaveProperty`, `IGALoadProperty`). -/
theorem C46_property_round_trip_partial (S : Setup g2 g3 colloc size procs axes axs Ls)
    (hE : colloc = true → ∀ ax ∈ axs, EndSpans ax) (S' : Setup g2' g3' colloc' size' procs' axes' axs' Ls')
    (hE' : colloc' = true → ∀ ax ∈ axs', EndSpans ax) (hnet : netSizes axs' = netSizes axs)
    (skip : Bool) (mem mem' : Int → K) {npd : Nat} (hn : 1 ≤ npd) {prop : List Int → Nat → K}
    {ps ps' : List (Piece K)} (hps : ps.map Prod.fst = Ls) (hg : ∀ q ∈ ps, HasProperty npd prop q)
    (hps' : ps'.map Prod.fst = Ls') (rest : File K) :
    ∃ file, saveProperty skip mem npd ps = .ok file ∧
    ∃ qs, loadProperty skip mem' npd ps' (file ++ rest) = .ok (qs, rest) ∧ qs.map Prod.fst = Ls' ∧
      ∀ q ∈ qs, HasProperty npd prop q := by
  have H : IOGrid (netSizes axs) (ioWorld (ps.map Prod.fst)) := by rw [hps]; exact io_grid S hE
  have H' : IOGrid (netSizes axs) (ioWorld (ps'.map Prod.fst)) := by rw [hps', ← hnet]; exact io_grid S' hE'
  obtain ⟨v, e, hv⟩ := saveProperty_ok H skip mem hn hg
  obtain ⟨qs, e', F⟩ := loadProperty_ok H' skip mem' hn hv rest
  refine ⟨_, e, qs, e', ?_, ?_⟩
  · rw [← hps']
    exact fst_same (F.imp fun _ _ h => h.1)
  · intro q hq
    obtain ⟨q0, -, h⟩ := forall2_mem_right F _ hq
    exact h.2.1

/-- Arrays of a process holding a given net exist. -/
theorem stores_exists {start width : List Int} (n : Nat) (f : List Int → Nat → K) (hw : ∀ d ∈ width, 0 ≤ d) :
    ∃ arr, Stores start width n arr f := by
  have hP := prod_nonneg' hw
  classical
  refine ⟨_, stores_block (N := (prod width).toNat)
    (fun a c => if h : ∃ y, InBlock start width y ∧ flat width (rel start y) = (a:Int) then f h.choose c else 0) (by omega) ?_⟩
  intro y hy a ha c hc
  have h : ∃ y, InBlock start width y ∧ flat width (rel start y) = (a:Int) := ⟨y, hy, ha⟩
  rw [dif_pos h]
  congr 1
  have e := flat_inj (rel_inBox h.choose_spec.1) (rel_inBox hy) (by rw [h.choose_spec.2, ha])
  rw [← shiftBy_rel start h.choose (inBlock_length h.choose_spec.1), e, shiftBy_rel start y (inBlock_length hy)]

/-- Every control net is held by arrays on every partition; without an array of weights when they are all 1. -/
theorem net_exists (S : Setup g2 g3 colloc size procs axes axs Ls) (hE : colloc = true → ∀ ax ∈ axs, EndSpans ax)
    (nsd npd : Nat) (coord : List Int → Nat → K) (w : List Int → K) (prop : List Int → Nat → K) :
    ∃ ps : List (Piece K), ps.map Prod.fst = Ls ∧ ∀ q ∈ ps, HasGeometry nsd coord w q ∧ HasProperty npd prop q ∧
      q.2.nsd = nsd ∧ q.2.npd = npd ∧ ((∀ x, w x = 1) → q.2.W = none) := by
  have H := io_grid S hE
  have wid : ∀ L ∈ Ls, ∀ d ∈ L.dir.map Dir.geomGwidth, 0 ≤ d := by
    intro L hL
    obtain ⟨r, hr⟩ := List.getElem?_of_mem hL
    have := H.wid r (by rw [ioWorld_length]; exact (List.getElem?_eq_some_iff.1 hr).1)
    rwa [(ioWorld_gho hr).2] at this
  have one : ∀ L ∈ Ls, ∃ g : SetUp.Geo K, HasGeometry nsd coord w (L, g) ∧ HasProperty npd prop (L, g) ∧
      g.nsd = nsd ∧ g.npd = npd ∧ ((∀ x, w x = 1) → g.W = none) := by
    intro L hL
    obtain ⟨X, hX⟩ := stores_exists (start := L.dir.map Dir.geomGstart) nsd coord (wid L hL)
    obtain ⟨A, hA⟩ := stores_exists (start := L.dir.map Dir.geomGstart) npd prop (wid L hL)
    obtain ⟨W, hW⟩ := stores_exists (start := L.dir.map Dir.geomGstart) 1 (fun y _ => w y) (wid L hL)
    by_cases h : ∀ x, w x = 1
    · exact ⟨⟨false, none, nsd, some X, npd, some A⟩, ⟨⟨X, rfl, hX⟩, fun y _ => h y⟩, ⟨A, rfl, hA⟩, rfl, rfl, fun _ => rfl⟩
    · exact ⟨⟨true, some W, nsd, some X, npd, some A⟩, ⟨⟨X, rfl, hX⟩, hW⟩, ⟨A, rfl, hA⟩, rfl, rfl, fun h' => absurd h' h⟩
  clear wid H S hE
  induction Ls with
  | nil => exact ⟨[], rfl, by simp⟩
  | cons L Ls ih =>
    obtain ⟨g, hg⟩ := one L (by simp)
    obtain ⟨ps, e, h⟩ := ih fun L hL => one L (by simp [hL])
    refine ⟨(L, g) :: ps, by rw [List.map_cons, e], ?_⟩
    intro q hq
    rcases List.mem_cons.1 hq with rfl | hq
    · exact hg
    · exact h q hq

/-- Non-vacuity of C46: a net with a zero weight, saved by 4 processes and read by 1 (which sets the flag). -/
example (g2 : Guess2) (g3 : Guess3) (mem : Int → ℚ) (coord : List Int → Nat → ℚ) :
    ∃ (ps ps' qs : List (Piece ℚ)) (file : File ℚ), ps.length = 4 ∧ ps'.length = 1 ∧
      saveGeometry false mem 2 ps = .ok file ∧ loadGeometry false mem (1/10^13) 2 ps' file = .ok (qs, []) ∧
      ∀ q ∈ qs, q.2.rational = true ∧ HasGeometry 2 coord (fun x => if x = [0,0] then 0 else 2) q := by
  obtain ⟨Ls, S⟩ := exSetup g2 g3
  obtain ⟨Ls', S'⟩ := exSetup1 g2 g3
  obtain ⟨ps, hps, h⟩ := net_exists S (by simp) 2 0 coord (fun x => if x = [0,0] then 0 else 2) (fun _ _ => 0)
  obtain ⟨ps', hps', -⟩ := net_exists S' (by simp) 2 0 coord (fun _ => 1) (fun _ _ => 0)
  obtain ⟨file, e, qs, e', -, hq⟩ := C46_geometry_round_trip_partial S (by simp) S' (by simp) rfl false mem mem (1/10^13) (nsd := 2)
    (by omega) hps (fun q hq => (h q hq).1) hps' []
  refine ⟨ps, ps', qs, file, ?_, ?_, e, by rw [List.append_nil] at e'; exact e', ?_⟩
  · have := congrArg List.length hps
    have h4 := S.ranks.1
    rw [List.length_map] at this
    omega
  · have := congrArg List.length hps'
    have h4 := S'.ranks.1
    rw [List.length_map] at this
    omega
  · intro q h
    refine ⟨(hq q h).2.2.2 ⟨[1,0], [0,0], ?_, ?_, ?_⟩, (hq q h).1⟩
    · have : netSizes exAxs = [8, 3] := by decide +kernel
      rw [this]; exact .cons (by omega) (.cons (by omega) .nil)
    · have : netSizes exAxs = [8, 3] := by decide +kernel
      rw [this]; exact .cons (by omega) (.cons (by omega) .nil)
    · norm_num

/-- C46 is false as stated for the flag: weights that differ by at most the tolerance are read back, but the object is not
flagged rational (whatever the positive tolerance). -/
theorem C46_rational_flag_refuted (g2 : Guess2) (g3 : Guess3) (tol : ℚ) (ht : 0 < tol) :
    ∃ (ps ps' qs : List (Piece ℚ)) (file : File ℚ) (w : List Int → ℚ), (∃ x y, InBox (netSizes exAxs) x ∧ InBox (netSizes exAxs) y ∧ w x ≠ w y) ∧
      (∀ q ∈ ps, HasGeometry 2 (fun _ _ => 0) w q) ∧ qs ≠ [] ∧
      saveGeometry false (fun _ => 0) 2 ps = .ok file ∧ loadGeometry false (fun _ => 0) tol 2 ps' file = .ok (qs, []) ∧
      ∀ q ∈ qs, q.2.rational = false ∧ HasGeometry 2 (fun _ _ => 0) w q := by
  obtain ⟨Ls, S⟩ := exSetup g2 g3
  obtain ⟨Ls', S'⟩ := exSetup1 g2 g3
  obtain ⟨ps, hps, h⟩ := net_exists S (by simp) 2 0 (fun _ _ => 0) (fun x => if x = [0,0] then 1 else 1 + tol) (fun _ _ => 0)
  obtain ⟨ps', hps', -⟩ := net_exists S' (by simp) 2 0 (fun _ _ => 0) (fun _ => 1) (fun _ _ => 0)
  obtain ⟨file, e, qs, e', hL, hq⟩ := C46_geometry_round_trip_partial S (by simp) S' (by simp) rfl false (fun _ => 0) (fun _ => 0) tol (nsd := 2)
    (by omega) hps (fun q hq => (h q hq).1) hps' []
  have hs : netSizes exAxs = [8, 3] := by decide +kernel
  refine ⟨ps, ps', qs, file, _, ⟨[1,0], [0,0], ?_, ?_, ?_⟩, fun q hq => (h q hq).1, ?_, e, by rw [List.append_nil] at e'; exact e', ?_⟩
  · rw [hs]; exact .cons (by omega) (.cons (by omega) .nil)
  · rw [hs]; exact .cons (by omega) (.cons (by omega) .nil)
  · simp [ht.ne']
  · rintro rfl
    have h4 := S'.ranks.1
    rw [← hL] at h4
    simp at h4
  · intro q h
    refine ⟨?_, (hq q h).1⟩
    rw [← Bool.not_eq_true, (hq q h).2.2]
    rintro ⟨x, y, -, -, hlt⟩
    split_ifs at hlt <;> linarith

/-! ### C73 -/

/-- Offset between nodes and control points in each direction (collocation on periodic axes). -/
def nodeShifts (colloc : Bool) (axs : List (Axis K)) : List Int :=
  axs.map fun ax => if colloc then (ax.m - ax.p - ax.nnp) / 2 else 0

theorem app_grid (S : Setup g2 g3 colloc size procs axes axs Ls) (hE : colloc = true → ∀ ax ∈ axs, EndSpans ax) :
    AppGrid (axs.map Axis.nnp) (netSizes axs) (nodeShifts colloc axs) (appWorld Ls) ∧ (∀ n ∈ axs.map Axis.nnp, 1 ≤ n) ∧
      ∀ bs, natSize (appWorld Ls) bs = ((bs:Int) * prod (netSizes axs)).toNat := by
  have hlen := S.ranks.1
  have hne := S.nonempty
  obtain ⟨L, hL⟩ : ∃ L, Ls[0]? = some L := ⟨Ls[0]'(by omega), by simp⟩
  obtain ⟨h1, h2, -, -⟩ := S.get hL
  obtain ⟨H, -, hp, -⟩ := C28_after_setup_partial g2 g3 colloc size procs axes L _ S.reached h1 (by rw [h2]; exact S.cond)
    (by rw [h2]; exact hE) Ls S.ranks
  rw [h2] at H hp
  refine ⟨H, hp, fun bs => ?_⟩
  have : (appWorld Ls).headD [] = L.dir.map adir := by
    cases Ls with
    | nil => simp at hL
    | cons a l =>
      simp only [List.getElem?_cons_zero, Option.some.injEq] at hL
      subst hL
      rfl
  unfold natSize
  rw [this, H.sizes _ (List.mem_map.2 ⟨L, List.mem_of_getElem? hL, rfl⟩), foldl_mul, one_mul]
  rfl

theorem wrapAll_mod : ∀ {Ns x : List Int}, InBox Ns (wrapAll Ns x) → wrapAll Ns x = modAll Ns x
  | [], _, _ => rfl
  | n :: Ns, [], _ => rfl
  | n :: Ns, i :: x, h => by
    unfold wrapAll modAll at *
    rw [List.zipWith_cons_cons] at h ⊢
    rw [List.zipWith_cons_cons]
    cases h with
    | cons h1 h2 =>
      have ih := wrapAll_mod (Ns := Ns) (x := x) h2
      unfold wrapAll modAll at ih
      rw [ih]
      congr 1
      unfold wrap at h1 ⊢
      split_ifs at h1 ⊢ with c1 c2
      · rw [← Int.add_emod_left n i, Int.emod_eq_of_lt h1.1 h1.2]
      · rw [Int.tmod_eq_emod_of_nonneg (by omega)]
      · rw [Int.emod_eq_of_lt (by omega) (by omega)]

theorem node_of_point {Ns Gs sh : List Int} {A : List (List ADir)} (H : AppGrid Ns Gs sh A) {y : List Int} (hy : InBox Gs y) :
    InBox Ns (wrapAll Ns (rel sh y)) := by
  obtain ⟨r, ⟨hr, hb⟩, -⟩ := H.part.owner y hy
  have ha : A[r]? = some A[r] := by simp [hr]
  have hsub := sub_mem (H.cover _ (List.getElem_mem hr)) (x := y) (by
    rw [mem_box, List.map_map, List.map_map]
    rw [(app_get ha).1, (app_get ha).2] at hb
    exact hb)
  have : (A[r].map fun d => (d.g.gstart, d.g.gwidth)) = gbox (A[r].map ADir.g) := by unfold gbox; rw [List.map_map]; rfl
  rw [box_shift (fun d => d.g.gstart) (fun d => d.g.gwidth) ADir.shift, List.mem_map, this] at hsub
  obtain ⟨x, hx, rfl⟩ := hsub
  rw [H.shift _ (List.getElem_mem hr)]
  have hl : x.length = sh.length := by
    rw [inBlock_length ((mem_box _ _).1 hx), ← H.shift _ (List.getElem_mem hr), gbox_fst]; simp
  rw [rel_shiftBy _ _ hl]
  exact H.wraps r x (by unfold world; simpa using hr) ((mem_gbox (world_get ha) x).1 hx)

/-- C73, contents: the file of `IGASaveVec` has the `bs` values of control point `y` at position `bs*(y₀ + n₀*(y₁ + …))`; they
are those of the node `y` stands for (`y` itself without periodic axes; without collocation the shift is 0). -/
theorem C73_vector_file_partial (S : Setup g2 g3 colloc size procs axes axs Ls) (hE : colloc = true → ∀ ax ∈ axs, EndSpans ax)
    (skip : Bool) (mem : Int → K) (bs : Nat) (gvec : Int → K) (u : List Int → Nat → K) (hu : Represents axs Ls bs gvec u) :
    ∃ v, saveVec skip mem (appWorld Ls) bs gvec = .ok (vecView skip ((bs:Int) * prod (netSizes axs)).toNat v) ∧
      ∀ y, InBox (netSizes axs) y → ∀ c, c < bs → v ((bs:Int) * flat (netSizes axs) y + (c:Nat)) =
        u (modAll (axs.map Axis.nnp) (rel (nodeShifts colloc axs) y)) c := by
  obtain ⟨H, hp, hN⟩ := app_grid S hE
  obtain ⟨v, e, h⟩ := C28_global_to_natural _ _ _ _ H bs gvec mem
  refine ⟨v, ?_, ?_⟩
  · unfold saveVec; rw [e]; show Res.ok _ = _; rw [hN]
  · intro y hy c hc
    have hb := node_of_point H hy
    rw [h y hy c hc, hu _ c hb hc, wrapAll_mod hb]

/-- C73: programs with any numbers of processes write the same file for the same nodal field. -/
theorem C73_file_process_independent_partial (S : Setup g2 g3 colloc size procs axes axs Ls)
    (S' : Setup g2' g3' colloc size' procs' axes' axs Ls') (hE : colloc = true → ∀ ax ∈ axs, EndSpans ax)
    (skip : Bool) (mem mem' : Int → K) (bs : Nat) (gvec gvec' : Int → K) (u : List Int → Nat → K)
    (hu : Represents axs Ls bs gvec u) (hu' : Represents axs Ls' bs gvec' u) :
    saveVec skip mem' (appWorld Ls') bs gvec' = saveVec skip mem (appWorld Ls) bs gvec := by
  obtain ⟨v, e, h⟩ := C73_vector_file_partial S hE skip mem bs gvec u hu
  obtain ⟨v', e', h'⟩ := C73_vector_file_partial S' hE skip mem' bs gvec' u hu'
  have hG : ∀ g ∈ netSizes axs, 1 ≤ g := (io_grid S hE).pos
  rw [e, e', vecView_congr (v := v') (v' := v) hG skip fun x c hx hc => by rw [h' x hx c hc, h x hx c hc]]

/-- C73: a nodal field written with `IGASaveVec` by any number of processes and read with `IGALoadVec` by any other number
is the same nodal field, whatever the vector held before; the file position is after the vector. -/
theorem C73_vector_round_trip_partial (S : Setup g2 g3 colloc size procs axes axs Ls)
    (S' : Setup g2' g3' colloc size' procs' axes' axs Ls') (hE : colloc = true → ∀ ax ∈ axs, EndSpans ax)
    (skip : Bool) (mem : Int → K) (bs : Nat) (gvec old : Int → K) (u : List Int → Nat → K)
    (hu : Represents axs Ls bs gvec u) (rest : File K) :
    ∃ file, saveVec skip mem (appWorld Ls) bs gvec = .ok file ∧
    ∃ gvec', loadVec skip (appWorld Ls') bs old (file ++ rest) = .ok (gvec', rest) ∧ Represents axs Ls' bs gvec' u := by
  obtain ⟨v, e, h⟩ := C73_vector_file_partial S hE skip mem bs gvec u hu
  obtain ⟨H, hp, hN⟩ := app_grid S' hE
  refine ⟨_, e, ?_⟩
  unfold loadVec
  rw [hN, vecLoad_ok]
  refine ⟨_, rfl, ?_⟩
  intro x c hx hc
  rw [C28_natural_to_global _ _ _ _ H hp bs _ old x hx c hc]
  have hs := H.shifted x hx
  have hr := flat_range hs
  obtain ⟨a, ha⟩ : ∃ a : Nat, flat (netSizes axs) (shiftBy (nodeShifts colloc axs) x) = a :=
    ⟨(flat (netSizes axs) (shiftBy (nodeShifts colloc axs) x)).toNat, by omega⟩
  have hv := h _ hs c hc
  have hlen : x.length = (nodeShifts colloc axs).length := by
    rw [← hx.length_eq]; unfold nodeShifts; simp
  rw [rel_shiftBy _ _ hlen, ← wrapAll_mod (by rw [wrapAll_self hx]; exact hx), wrapAll_self hx, ha] at hv
  rw [← hv, ha, index_eq]
  rw [ha] at hr
  have e2 : c + bs * a < ((bs:Int) * prod (netSizes axs)).toNat := by
    have : (((bs * (a+1) : Nat)) : Int) ≤ (bs:Int) * prod (netSizes axs) := by
      push_cast
      exact mul_le_mul_of_nonneg_left (by omega) (by omega)
    have h2 : bs * (a+1) = bs * a + bs := by ring
    omega
  rw [List.getD_eq_getElem?_getD, List.getElem?_map, List.getElem?_range e2, Option.map_some, Option.getD_some]
  congr 1
  push_cast; ring

/-- Non-vacuity of C73: written by 4 processes, read by 1 (direction 0 is periodic). -/
example (g2 : Guess2) (g3 : Guess3) (mem old : Int → ℚ) (u : List Int → Nat → ℚ) :
    ∃ Ls Ls' gvec gvec' file, Setup g2 g3 false 4 [2,2] [exAx0, exAx1] exAxs Ls ∧
      Setup g2 g3 false 1 [1,1] [exAx0, exAx1] exAxs Ls' ∧ Represents exAxs Ls 2 gvec u ∧
      saveVec false mem (appWorld Ls) 2 gvec = .ok file ∧ loadVec false (appWorld Ls') 2 old file = .ok (gvec', []) ∧
      gvec' (2 * appToPetsc (world (appWorld Ls')) (flat [6,3] [1,2]) + 1) = u [1,2] 1 := by
  obtain ⟨Ls, S⟩ := exSetup g2 g3
  obtain ⟨Ls', S'⟩ := exSetup1 g2 g3
  obtain ⟨gvec, hu⟩ := represents_exists S 2 u
  obtain ⟨file, e, gvec', e', h⟩ := C73_vector_round_trip_partial S S' (by simp) false mem 2 gvec old u hu []
  rw [List.append_nil] at e'
  refine ⟨Ls, Ls', gvec, gvec', file, S, S', hu, e, e', ?_⟩
  have e1 : exAxs.map Axis.nnp = [6,3] := by decide +kernel
  have := h [1,2] 1 (by rw [e1]; exact .cons (by omega) (.cons (by omega) .nil)) (by omega)
  rw [e1] at this
  exact this

end PetIGA.IO
