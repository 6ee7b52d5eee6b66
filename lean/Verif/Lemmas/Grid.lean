import Verif.Model.Grid
import Verif.Lemmas.Part
import Verif.Spec.Layout
import Mathlib.Data.List.Nodup
import Mathlib.Algebra.BigOperators.Group.List.Basic
/-! Lemmas about the index arithmetic of the grid model. -/
set_option linter.unusedSectionVars false
namespace PetIGA.Grid
open PetIGA.Spec PetIGA.Part

theorem flat_eq_lin : ∀ (ns x : List Int), flat ns x = lin ns x
  | [], [] => rfl
  | [], _ :: _ => rfl
  | _ :: _, [] => rfl
  | _ :: ns, _ :: x => by simp only [flat, lin, flat_eq_lin ns x]

theorem natural_flat : ∀ (ns x : List Int) (s : Int), natural s ns x = s * flat ns x
  | [], [], s => by simp [natural, flat]
  | [], _ :: _, s => by simp [natural, flat]
  | _ :: _, [], s => by simp [natural, flat]
  | n :: ns, i :: x, s => by simp only [natural, flat, natural_flat ns x]; ring

theorem natural_one (ns x : List Int) : natural 1 ns x = flat ns x := by rw [natural_flat, one_mul]

theorem flat_range {ns x : List Int} (h : InBox ns x) : 0 ≤ flat ns x ∧ flat ns x < prod ns := by
  rw [flat_eq_lin]; exact lin_range h

theorem flat_inj {ns x y : List Int} (hx : InBox ns x) (hy : InBox ns y) (h : flat ns x = flat ns y) : x = y := by
  rw [flat_eq_lin, flat_eq_lin] at h
  rw [← coords_lin hx, h, coords_lin hy]

theorem flat_surj {ns : List Int} (hn : ∀ a ∈ ns, 1 ≤ a) {k : Int} (h0 : 0 ≤ k) (h1 : k < prod ns) :
    ∃ x, InBox ns x ∧ flat ns x = k :=
  ⟨coords ns k, coords_inBox hn h0, by rw [flat_eq_lin, lin_coords hn h0 h1]⟩

/-! ### Boxes -/

/-- Entry `i + n*j` of a list of consecutive blocks of `n` entries. -/
theorem flatMap_block {α β : Type} (n : Nat) (g : α → Nat → β) : ∀ (B : List α) (i j : Nat), i < n →
    (B.flatMap fun b => (List.range n).map (g b))[i + n * j]? = B[j]?.map (fun b => g b i) := by
  intro B
  induction B with
  | nil => intro i j _; simp
  | cons b B ih =>
    intro i j hi
    rw [List.flatMap_cons]
    cases j with
    | zero =>
      rw [Nat.mul_zero, Nat.add_zero, List.getElem?_append_left (by simpa using hi)]
      simp [hi]
    | succ j =>
      have hle : ((List.range n).map (g b)).length ≤ i + n * (j+1) := by
        simp only [List.length_map, List.length_range]; nlinarith
      rw [List.getElem?_append_right hle, List.length_map, List.length_range,
        show i + n * (j+1) - n = i + n * j by rw [Nat.mul_succ]; omega, ih i j hi, List.getElem?_cons_succ]

theorem flatMap_block_length {α β : Type} (n : Nat) (g : α → Nat → β) (B : List α) :
    (B.flatMap fun b => (List.range n).map (g b)).length = n * B.length := by
  induction B with
  | nil => simp
  | cons b B ih => rw [List.flatMap_cons, List.length_append, ih]; simp; ring

theorem mem_box : ∀ (l : List (Int × Int)) (x : List Int),
    x ∈ box l ↔ InBlock (l.map Prod.fst) (l.map Prod.snd) x
  | [], x => by
    simp only [box, List.mem_singleton, List.map_nil]
    exact ⟨fun h => h ▸ .nil, fun h => by cases h; rfl⟩
  | (s, w) :: l, x => by
    simp only [box, List.mem_flatMap, List.mem_map, List.mem_range, List.map_cons]
    constructor
    · rintro ⟨is, h1, k, h2, rfl⟩
      exact .cons (by omega) ((mem_box l is).1 h1)
    · intro h
      cases h with
      | @cons _ _ i _ _ is h1 h2 =>
        exact ⟨is, (mem_box l is).2 h2, (i - s).toNat, by omega, by rw [show s + ((i - s).toNat : Int) = i by omega]⟩

theorem nodup_box : ∀ (l : List (Int × Int)), (box l).Nodup
  | [] => by simp [box]
  | (s, w) :: l => by
    simp only [box]
    rw [List.nodup_flatMap]
    refine ⟨fun is _ => ?_, ?_⟩
    · rw [List.nodup_map_iff_inj_on List.nodup_range]
      intro a _ b _ h
      simp only [List.cons.injEq] at h
      omega
    · apply (nodup_box l).imp
      intro a b hab
      simp only [Function.onFun, List.disjoint_left, List.mem_map, not_exists, not_and]
      rintro _ ⟨k, _, rfl⟩ k' _ h
      simp only [List.cons.injEq] at h
      exact hab h.2.symm

theorem length_box : ∀ (l : List (Int × Int)), (∀ p ∈ l, 0 ≤ p.2) → ((box l).length : Int) = prod (l.map Prod.snd)
  | [], _ => by simp [box, prod]
  | (s, w) :: l, h => by
    have h1 := h (s, w) (by simp)
    have h2 := length_box l (fun p hp => h p (by simp [hp]))
    simp only [box, flatMap_block_length, List.map_cons, prod]
    rw [← h2]
    push_cast
    rw [Int.toNat_of_nonneg h1]

/-- Position of a multi-index in the nested loops. -/
theorem box_get : ∀ (l : List (Int × Int)) (x : List Int), InBlock (l.map Prod.fst) (l.map Prod.snd) x →
    0 ≤ flat (l.map Prod.snd) (rel (l.map Prod.fst) x) ∧
    (box l)[(flat (l.map Prod.snd) (rel (l.map Prod.fst) x)).toNat]? = some x
  | [], x, h => by cases h; simp [box, flat]
  | (s, w) :: l, x, h => by
    simp only [List.map_cons] at h ⊢
    cases h with
    | @cons _ _ i _ _ is h1 h2 =>
      obtain ⟨a, b⟩ := box_get l is h2
      simp only [rel, List.zipWith_cons_cons, flat] at a b ⊢
      generalize flat (l.map Prod.snd) (List.zipWith (fun i s => i - s) is (l.map Prod.fst)) = f at *
      have hp : 0 ≤ w * f := Int.mul_nonneg (by omega) a
      refine ⟨by omega, ?_⟩
      have e : (i - s + w * f).toNat = (i - s).toNat + w.toNat * f.toNat := by
        rw [Int.toNat_add (by omega) hp, Int.toNat_mul (by omega) a]
      simp only [box]
      rw [e, flatMap_block _ _ _ _ _ (by omega), b, Option.map_some,
        show s + ((i - s).toNat : Int) = i by omega]

theorem inBlock_inBox {start len Ns x : List Int} (hb : Blocks Ns start len) (hx : InBlock start len x) : InBox Ns x := by
  induction hb generalizing x with
  | nil => cases hx; exact .nil
  | cons h1 h2 ih => cases hx with | cons h3 h4 => exact .cons (by omega) (ih h4)

theorem blocks_pos {start len Ns : List Int} (hb : Blocks Ns start len) : (∀ w ∈ len, 1 ≤ w) ∧ (∀ n ∈ Ns, 1 ≤ n) := by
  induction hb with
  | nil => simp
  | cons h1 h2 ih =>
    constructor
    · intro w hw
      rcases List.mem_cons.1 hw with rfl | hw
      · exact h1.2.1
      · exact ih.1 w hw
    · intro w hw
      rcases List.mem_cons.1 hw with rfl | hw
      · omega
      · exact ih.2 w hw

theorem rel_inBox {start len x : List Int} (hx : InBlock start len x) : InBox len (rel start x) := by
  induction hx with
  | nil => exact .nil
  | cons h1 h2 ih => exact .cons (by dsimp only; omega) ih

theorem blocks_corner {start len Ns : List Int} (hb : Blocks Ns start len) : InBlock start len start := by
  induction hb with
  | nil => exact .nil
  | cons h1 h2 ih => exact .cons (by omega) ih

/-! ### Lists -/

theorem flatMap_get {α β : Type} (f : α → List β) : ∀ (L : List α) (r : Nat) (a : α) (k : Nat), L[r]? = some a →
    k < (f a).length → (L.flatMap f)[((L.take r).flatMap f).length + k]? = (f a)[k]? := by
  intro L
  induction L with
  | nil => intro r a k h; simp at h
  | cons b L ih =>
    intro r a k h hk
    cases r with
    | zero =>
      simp only [List.getElem?_cons_zero, Option.some.injEq] at h
      subst h
      simp only [List.take_zero, List.flatMap_nil, List.length_nil, Nat.zero_add, List.flatMap_cons]
      rw [List.getElem?_append_left hk]
    | succ r =>
      rw [List.getElem?_cons_succ] at h
      rw [List.take_succ_cons, List.flatMap_cons, List.flatMap_cons, List.length_append, Nat.add_assoc,
        List.getElem?_append_right (by omega), Nat.add_sub_cancel_left, ih r a k h hk]

theorem idxOf_of_get {α : Type} [DecidableEq α] {l : List α} (h : l.Nodup) {k : Nat} {a : α} (hk : l[k]? = some a) :
    l.idxOf a = k := by
  obtain ⟨h1, rfl⟩ := List.getElem?_eq_some_iff.1 hk
  exact h.idxOf_getElem k h1

/-! ### Scatters -/

theorem insertAll_not_mem {α β V : Type} [DecidableEq β] (x : α → V) : ∀ (ps : List (α × β)) (y : β → V) (b : β),
    (∀ p ∈ ps, p.2 ≠ b) → insertAll ps x y b = y b := by
  intro ps
  induction ps with
  | nil => intro y b _; rfl
  | cons p ps ih =>
    intro y b h
    show insertAll ps x (upd y p.2 (x p.1)) b = y b
    rw [ih _ _ (fun q hq => h q (by simp [hq]))]
    unfold upd
    rw [if_neg (Ne.symm (h p (by simp)))]

theorem insertAll_mem {α β V : Type} [DecidableEq β] (x : α → V) : ∀ (ps : List (α × β)) (y : β → V) (a : α) (b : β),
    (ps.map Prod.snd).Nodup → (a, b) ∈ ps → insertAll ps x y b = x a := by
  intro ps
  induction ps with
  | nil => intro y a b _ h; simp at h
  | cons p ps ih =>
    intro y a b hn hm
    rw [List.map_cons, List.nodup_cons] at hn
    show insertAll ps x (upd y p.2 (x p.1)) b = x a
    rcases List.mem_cons.1 hm with rfl | hm
    · rw [insertAll_not_mem]
      · unfold upd; rw [if_pos rfl]
      · intro q hq he
        exact hn.1 (List.mem_map.2 ⟨q, hq, he⟩)
    · exact ih _ _ _ hn.2 hm

/-- Several sources may be stored in the same place as long as they carry the same value. -/
theorem insertAll_agree {α β V : Type} [DecidableEq β] (x : α → V) (b : β) (v : V) : ∀ (ps : List (α × β)) (y : β → V),
    (∀ p ∈ ps, p.2 = b → x p.1 = v) → (∃ p ∈ ps, p.2 = b) → insertAll ps x y b = v := by
  intro ps
  induction ps with
  | nil => intro y _ h; simp at h
  | cons p ps ih =>
    intro y h1 h2
    show insertAll ps x (upd y p.2 (x p.1)) b = v
    by_cases hx : ∃ q ∈ ps, q.2 = b
    · exact ih _ (fun q hq => h1 q (by simp [hq])) hx
    · rw [insertAll_not_mem]
      · obtain ⟨q, hq, he⟩ := h2
        rcases List.mem_cons.1 hq with rfl | hq
        · unfold upd; rw [if_pos he.symm]; exact h1 _ (by simp) he
        · exact absurd ⟨q, hq, he⟩ hx
      · intro q hq he; exact hx ⟨q, hq, he⟩

theorem addAll_eq {α β V : Type} [DecidableEq β] [AddCommMonoid V] (x : α → V) : ∀ (ps : List (α × β)) (y : β → V) (b : β),
    addAll ps x y b = y b + ((ps.filter fun p => decide (p.2 = b)).map fun p => x p.1).sum := by
  intro ps
  induction ps with
  | nil => intro y b; simp [addAll]
  | cons p ps ih =>
    intro y b
    show addAll ps x (upd y p.2 (y p.2 + x p.1)) b = _
    rw [ih]
    unfold upd
    by_cases h : p.2 = b
    · rw [if_pos h.symm, List.filter_cons_of_pos (by simpa using h), List.map_cons, List.sum_cons, h, add_assoc]
    · rw [if_neg (Ne.symm h), List.filter_cons_of_neg (by simpa using h)]

theorem blockIS_get (bs : Nat) (idx : List Int) (c j : Nat) (hc : c < bs) :
    (blockIS bs idx)[c + bs * j]? = idx[j]?.map (fun b => (bs:Int) * b + c) := by
  unfold blockIS
  exact flatMap_block bs (fun b c => (bs:Int) * b + (c:Int)) idx c j hc

theorem blockIS_length (bs : Nat) (idx : List Int) : (blockIS bs idx).length = bs * idx.length := by
  unfold blockIS; exact flatMap_block_length _ _ _

theorem mem_blockIS {bs : Nat} {idx : List Int} {i : Int} :
    i ∈ blockIS bs idx ↔ ∃ b ∈ idx, ∃ c : Nat, c < bs ∧ i = (bs:Int) * b + c := by
  unfold blockIS
  simp only [List.mem_flatMap, List.mem_map, List.mem_range]
  constructor
  · rintro ⟨b, hb, c, hc, rfl⟩; exact ⟨b, hb, c, hc, rfl⟩
  · rintro ⟨b, hb, c, hc, rfl⟩; exact ⟨b, hb, c, hc, rfl⟩

/-- Block index and component determine each other. -/
theorem block_inj {bs : Nat} {b b' : Int} {c c' : Nat} (hc : c < bs) (hc' : c' < bs)
    (h : (bs:Int) * b + c = (bs:Int) * b' + c') : b = b' ∧ c = c' := by
  have e1 : ((bs:Int) * b + c) / bs = b := by
    rw [Int.add_comm, Int.add_mul_ediv_left _ _ (by omega), Int.ediv_eq_zero_of_lt (by omega) (by omega)]; omega
  have e2 : ((bs:Int) * b' + c') / bs = b' := by
    rw [Int.add_comm, Int.add_mul_ediv_left _ _ (by omega), Int.ediv_eq_zero_of_lt (by omega) (by omega)]; omega
  have : b = b' := by rw [← e1, h, e2]
  subst this
  exact ⟨rfl, by omega⟩

theorem nodup_blockIS {bs : Nat} {idx : List Int} (h : idx.Nodup) : (blockIS bs idx).Nodup := by
  unfold blockIS
  rw [List.nodup_flatMap]
  refine ⟨fun b _ => ?_, ?_⟩
  · rw [List.nodup_map_iff_inj_on List.nodup_range]
    intro a ha c hc he
    rw [List.mem_range] at ha hc
    exact (block_inj ha hc he).2
  · apply h.imp
    intro a b hab
    simp only [Function.onFun, List.disjoint_left, List.mem_map, List.mem_range, not_exists, not_and]
    rintro _ ⟨c, hc, rfl⟩ c' hc' he
    exact hab (block_inj hc' hc he).1.symm

theorem collect_ok {α β : Type} (f : β → Res (List α)) (v : β → List α) : ∀ (l : List β), (∀ b ∈ l, f b = .ok (v b)) →
    collect (l.map f) = .ok (l.flatMap v)
  | [], _ => rfl
  | b :: l, h => by
    simp only [List.map_cons, collect, h b (by simp), Res.ok_bind, List.flatMap_cons]
    rw [collect_ok f v l (fun c hc => h c (by simp [hc]))]
    rfl

/-! ### Positions in boxes -/

/-- Position of a multi-index in the nested loops over a box. -/
def pos (l : List (Int × Int)) (x : List Int) : Int := flat (l.map Prod.snd) (rel (l.map Prod.fst) x)

theorem pos_get {l : List (Int × Int)} {x : List Int} (h : x ∈ box l) : 0 ≤ pos l x ∧ (box l)[(pos l x).toNat]? = some x :=
  box_get l x ((mem_box l x).1 h)

theorem pos_of_get {l : List (Int × Int)} {k : Nat} {x : List Int} (h : (box l)[k]? = some x) : pos l x = k := by
  obtain ⟨h0, h1⟩ := pos_get (List.mem_of_getElem? h)
  have a := idxOf_of_get (nodup_box l) h
  have b := idxOf_of_get (nodup_box l) h1
  omega

theorem zipIdx_box (l : List (Int × Int)) : (box l).zipIdx = (box l).map fun x => (x, (pos l x).toNat) := by
  apply List.ext_getElem?
  intro k
  rw [List.getElem?_zipIdx, List.getElem?_map]
  cases h : (box l)[k]? with
  | none => rfl
  | some x => simp [pos_of_get h]

theorem box_map_pos (l : List (Int × Int)) {α : Type} (F : Int → α) :
    ((box l).map fun x => F (pos l x)) = (List.range (box l).length).map fun (k : Nat) => F (k:Int) := by
  apply List.ext_getElem?
  intro k
  rw [List.getElem?_map, List.getElem?_map]
  cases h : (box l)[k]? with
  | none =>
    rw [List.getElem?_eq_none_iff] at h
    rw [List.getElem?_eq_none (by simpa using h)]; rfl
  | some x =>
    have hk := (List.getElem?_eq_some_iff.1 h).1
    rw [List.getElem?_range hk]
    simp [pos_of_get h]

/-- The membership test of the loops in `IGA_Grid_GetScatterL2G` and `IGA_Grid_NewScatterApp`. -/
def inb (lb : List (Int × Int)) (x : List Int) : Bool :=
  (List.zipWith (fun (b : Int × Int) i => decide (b.1 ≤ i ∧ i < b.1 + b.2)) lb x).all id

/-- Box `lb` is contained in box `gb`. -/
def Sub (lb gb : List (Int × Int)) : Prop :=
  List.Forall₂ (fun l g => g.1 ≤ l.1 ∧ 0 ≤ l.2 ∧ l.1 + l.2 ≤ g.1 + g.2) lb gb

theorem range_filter (s w s' w' : Int) (h0 : s ≤ s') (h1 : 0 ≤ w') (h2 : s' + w' ≤ s + w) :
    ((List.range w.toNat).filter fun (k : Nat) => decide (s' ≤ s + (k:Int) ∧ s + (k:Int) < s' + w')).map (fun (k : Nat) => s + (k:Int)) =
      (List.range w'.toNat).map fun (k : Nat) => s' + (k:Int) := by
  have e : w.toNat = (s' - s).toNat + w'.toNat + (s + w - s' - w').toNat := by omega
  rw [e, List.range_add, List.range_add, List.filter_append, List.filter_append]
  have a1 : ((List.range (s' - s).toNat).filter fun (k : Nat) => decide (s' ≤ s + (k:Int) ∧ s + (k:Int) < s' + w')) = [] := by
    rw [List.filter_eq_nil_iff]
    intro k hk
    rw [List.mem_range] at hk
    simp only [decide_eq_true_eq]; omega
  have a2 : ((List.map (fun x => (s' - s).toNat + x) (List.range w'.toNat)).filter
      fun (k : Nat) => decide (s' ≤ s + (k:Int) ∧ s + (k:Int) < s' + w')) = List.map (fun x => (s' - s).toNat + x) (List.range w'.toNat) := by
    rw [List.filter_eq_self]
    intro k hk
    rw [List.mem_map] at hk
    obtain ⟨j, hj, rfl⟩ := hk
    rw [List.mem_range] at hj
    simp only [decide_eq_true_eq]; push_cast; omega
  have a3 : ((List.map (fun x => (s' - s).toNat + w'.toNat + x) (List.range (s + w - s' - w').toNat)).filter
      fun (k : Nat) => decide (s' ≤ s + (k:Int) ∧ s + (k:Int) < s' + w')) = [] := by
    rw [List.filter_eq_nil_iff]
    intro k hk
    rw [List.mem_map] at hk
    obtain ⟨j, hj, rfl⟩ := hk
    simp only [decide_eq_true_eq]; push_cast; omega
  rw [a1, a2, a3, List.nil_append, List.append_nil, List.map_map]
  apply List.map_congr_left
  intro k _
  simp only [Function.comp_apply]
  push_cast
  omega

theorem flatMap_ite {α β : Type} (p : α → Bool) (G : α → List β) (B : List α) :
    (B.flatMap fun a => if p a then G a else []) = (B.filter p).flatMap G := by
  induction B with
  | nil => rfl
  | cons b B ih =>
    rw [List.flatMap_cons, ih]
    by_cases h : p b
    · rw [if_pos h, List.filter_cons_of_pos h, List.flatMap_cons]
    · rw [if_neg h, List.filter_cons_of_neg h, List.nil_append]

/-- The loop over the larger box with the membership test visits the smaller box in its own order. -/
theorem filter_box {lb gb : List (Int × Int)} (h : Sub lb gb) : (box gb).filter (inb lb) = box lb := by
  induction h with
  | nil => simp [box, inb]
  | @cons l g ls gs h1 h2 ih =>
    obtain ⟨s', w'⟩ := l
    obtain ⟨s, w⟩ := g
    simp only [box]
    rw [List.filter_flatMap]
    have e : ∀ is : List Int, List.filter (inb ((s', w') :: ls)) (List.map (fun (k : Nat) => (s + (k:Int)) :: is) (List.range w.toNat)) =
        if inb ls is then (List.range w'.toNat).map fun (k : Nat) => (s' + (k:Int)) :: is else [] := by
      intro is
      rw [List.filter_map]
      have f : (inb ((s', w') :: ls) ∘ fun (k : Nat) => (s + (k:Int)) :: is) =
          fun (k : Nat) => decide (s' ≤ s + (k:Int) ∧ s + (k:Int) < s' + w') && inb ls is := by
        funext k
        simp [inb]
      rw [f]
      by_cases hb : inb ls is = true
      · rw [if_pos hb, hb]
        simp only [Bool.and_true]
        have := range_filter s w s' w' h1.1 h1.2.1 h1.2.2
        have h3 := congrArg (List.map fun (i : Int) => i :: is) this
        rw [List.map_map, List.map_map] at h3
        exact h3
      · rw [if_neg hb]
        simp only [Bool.not_eq_true] at hb
        rw [hb]
        simp
    simp only [e]
    rw [flatMap_ite, ih]

theorem strideIS_eq (bs n : Nat) (first : Int) :
    strideIS (n * bs) (bs * first) = blockIS bs ((List.range n).map fun (k : Nat) => first + (k:Int)) := by
  unfold strideIS blockIS
  induction n with
  | zero => simp
  | succ n ih =>
    rw [Nat.succ_mul, List.range_add, List.map_append, ih, List.range_succ, List.map_append, List.flatMap_append]
    congr 1
    rw [List.map_map, List.map_cons, List.map_nil, List.flatMap_singleton]
    apply List.map_congr_left
    intro c _
    simp only [Function.comp_apply]
    push_cast; ring

theorem blockIS_zip {α : Type} (bs : Nat) (f g : α → Int) : ∀ L : List α,
    (blockIS bs (L.map f)).zip (blockIS bs (L.map g)) =
      L.flatMap fun x => (List.range bs).map fun (c : Nat) => ((bs:Int) * f x + c, (bs:Int) * g x + c)
  | [] => rfl
  | a :: L => by
    have ih := blockIS_zip bs f g L
    unfold blockIS at ih ⊢
    rw [List.map_cons, List.map_cons, List.flatMap_cons, List.flatMap_cons, List.zip_append (by simp), ih, List.flatMap_cons]
    congr 1
    rw [List.zip_map']

theorem zipIdx_stride (A : List Int) :
    (A.zipIdx.map fun (p : Int × Nat) => (p.1, (p.2 : Int))) = A.zip (strideIS A.length 0) := by
  unfold strideIS
  rw [List.zip_map_right, List.zipIdx_eq_zip_range', List.range_eq_range']
  apply List.map_congr_left
  intro p _
  simp
  rfl

/-- Pairs (value, position) of a blocked index set over a box. -/
theorem blockIS_zipIdx (bs : Nat) (l : List (Int × Int)) (f : List Int → Int) :
    ((blockIS bs ((box l).map f)).zipIdx.map fun (p : Int × Nat) => (p.1, (p.2 : Int))) =
      (box l).flatMap fun x => (List.range bs).map fun (c : Nat) => ((bs:Int) * f x + c, (bs:Int) * pos l x + c) := by
  rw [zipIdx_stride, blockIS_length, List.length_map, Nat.mul_comm]
  have := strideIS_eq bs (box l).length 0
  rw [mul_zero] at this
  rw [this]
  have e := box_map_pos l (fun k => (0:Int) + k)
  rw [← e]
  rw [blockIS_zip bs f (fun x => (0:Int) + pos l x)]
  simp

end PetIGA.Grid
