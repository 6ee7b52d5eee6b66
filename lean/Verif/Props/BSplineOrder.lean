import Verif.Props.BSpline
/-!
C13 for derivative orders above the degree: `IGAProbeSetPoint` (src/petigaprobe.c:346) asks for `order` derivatives in
every direction, whatever the degree of that direction.
-/
set_option linter.unusedSectionVars false
namespace PetIGA.Bsp
open PetIGA.Spec PetIGA.Ax Polynomial

variable {K : Type} [Field K] [LinearOrder K] [IsStrictOrderedRing K]

theorem kStep_high {p r k : Int} (ndu : Int → Int → K) (s : DS K) (h0 : 0 ≤ r) (h1 : r ≤ p) (hk : p < k) :
    kStep p r ndu k s = { a := s.a, s1 := s.s2, s2 := s.s1, ders := upd2 s.ders r k 0 } := by
  unfold kStep
  dsimp only
  rw [if_neg (c := r ≥ k) (by omega)]
  dsimp only
  have hj : ((if r - 1 ≤ p - k then k - 1 else p - r) - (if r - k > -1 then 1 else -(r - k)) + 1).toNat = 0 := by
    split_ifs <;> omega
  rw [hj]
  unfold aLoop
  dsimp only
  rw [if_neg (c := r ≤ p - k) (by omega)]

theorem kLoop_succ (p r : Int) (ndu : Int → Int → K) (n : Nat) (s : DS K) :
    kLoop p r ndu (n+1) s = kStep p r ndu ((n:Int)+1) (kLoop p r ndu n s) := rfl

theorem kLoop_high {p : Nat} {r : Int} (ndu : Int → Int → K) (s : DS K) (h0 : 0 ≤ r) (h1 : r ≤ p) : ∀ j : Nat,
    (kLoop p r ndu (p+j) s).a = (kLoop p r ndu p s).a ∧
    ∀ x y, (kLoop p r ndu (p+j) s).ders x y = if x = r ∧ (p:Int) < y ∧ y ≤ p + j then 0 else (kLoop p r ndu p s).ders x y
  | 0 => ⟨rfl, fun x y => by rw [if_neg (by omega)]; rfl⟩
  | j+1 => by
    obtain ⟨a, b⟩ := kLoop_high ndu s h0 h1 j
    rw [show p + (j+1) = (p + j) + 1 by ring]
    rw [kLoop_succ, kStep_high ndu _ h0 h1 (by push_cast; omega)]
    refine ⟨a, fun x y => ?_⟩
    dsimp only [upd2]
    rw [b]
    push_cast
    by_cases hx : x = r ∧ y = (p:Int) + j + 1
    · rw [if_pos hx, if_pos (by omega)]
    · rw [if_neg hx]
      by_cases h2 : x = r ∧ (p:Int) < y ∧ y ≤ p + j
      · rw [if_pos h2, if_pos (by omega)]
      · rw [if_neg h2, if_neg (by omega)]

/-- The loop over `k` only touches the entries `ders r k`, and depends on `ders` in no other way. -/
theorem kLoop_ders (p r : Int) (ndu : Int → Int → K) (s s' : DS K) (ha : s.a = s'.a) (h1 : s.s1 = s'.s1) (h2 : s.s2 = s'.s2) :
    ∀ n : Nat, (kLoop p r ndu n s).a = (kLoop p r ndu n s').a ∧ (kLoop p r ndu n s).s1 = (kLoop p r ndu n s').s1 ∧
      (kLoop p r ndu n s).s2 = (kLoop p r ndu n s').s2 ∧
      ∀ x y, s.ders x y = s'.ders x y → (kLoop p r ndu n s).ders x y = (kLoop p r ndu n s').ders x y
  | 0 => ⟨ha, h1, h2, fun _ _ h => h⟩
  | n+1 => by
    obtain ⟨a, b, c, d⟩ := kLoop_ders p r ndu s s' ha h1 h2 n
    unfold kLoop kStep
    dsimp only
    rw [a, b, c]
    refine ⟨rfl, rfl, rfl, fun x y h => ?_⟩
    dsimp only [upd2]
    by_cases hx : x = r ∧ y = (n:Int) + 1
    · rw [if_pos hx, if_pos hx]
    · rw [if_neg hx, if_neg hx]
      exact d x y h

theorem kLoop_other (p r : Int) (ndu : Int → Int → K) (s : DS K) {x : Int} (hx : x ≠ r) (y : Int) :
    ∀ n : Nat, (kLoop p r ndu n s).ders x y = s.ders x y
  | 0 => rfl
  | n+1 => by
    unfold kLoop kStep
    dsimp only [upd2]
    rw [if_neg (by tauto)]
    exact kLoop_other p r ndu s hx y n

theorem outer_high {p j : Nat} (ndu : Int → Int → K) (s : (Int → Int → K) × (Int → Int → K)) : ∀ R : Nat, R ≤ p + 1 →
    (outer p (p+j) ndu R s).1 = (outer p p ndu R s).1 ∧
    ∀ x y, (outer p (p+j) ndu R s).2 x y =
      if (0 ≤ x ∧ x < R) ∧ (p:Int) < y ∧ y ≤ p + j then 0 else (outer p p ndu R s).2 x y
  | 0, _ => ⟨rfl, fun x y => by rw [if_neg (by push_cast; omega)]; rfl⟩
  | R+1, hR => by
    obtain ⟨a, b⟩ := outer_high (p := p) (j := j) ndu s R (by omega)
    unfold outer
    dsimp only
    obtain ⟨c, d⟩ := kLoop_high (p := p) (r := (R:Int)) ndu
      { a := upd2 (outer p (p+j) ndu R s).1 0 0 1, s1 := 0, s2 := 1, ders := (outer p (p+j) ndu R s).2 } (by omega) (by omega) j
    obtain ⟨e, -, -, f⟩ := kLoop_ders p R ndu
      { a := upd2 (outer p (p+j) ndu R s).1 0 0 1, s1 := 0, s2 := 1, ders := (outer p (p+j) ndu R s).2 }
      { a := upd2 (outer p p ndu R s).1 0 0 1, s1 := 0, s2 := 1, ders := (outer p p ndu R s).2 } (by dsimp only; rw [a]) rfl rfl p
    refine ⟨c.trans e, fun x y => ?_⟩
    rw [d]
    push_cast
    by_cases h1 : x = R ∧ (p:Int) < y ∧ y ≤ p + j
    · rw [if_pos h1, if_pos (by omega)]
    · rw [if_neg h1]
      by_cases h2 : (0 ≤ x ∧ x < (R:Int)) ∧ (p:Int) < y ∧ y ≤ p + j
      · rw [if_pos (by omega), kLoop_other _ _ _ _ (by omega)]
        dsimp only
        rw [b, if_pos h2]
      · rw [if_neg (by omega)]
        apply f
        dsimp only
        rw [b, if_neg h2]

theorem scale_succ (p : Int) (n : Nat) (s : (Int → Int → K) × Int) : scale p (n+1) s =
    (fun x y => if y = (n:Int)+1 then (scale p n s).1 x y * ((scale p n s).2 : K) else (scale p n s).1 x y,
      (scale p n s).2 * (p - ((n:Int)+1))) := rfl

theorem scale_entry (p : Int) : ∀ (n : Nat) (r : Int), ∃ f : Int → K, ∀ (D : Int → Int → K) x y, (scale p n (D, r)).1 x y =
    if 1 ≤ y ∧ y ≤ n then D x y * f y else D x y := by
  have hr : ∀ (n : Nat) (r : Int) (D D' : Int → Int → K), (scale p n (D, r)).2 = (scale p n (D', r)).2 := by
    intro n
    induction n with
    | zero => intros; rfl
    | succ n ih => intro r D D'; unfold scale; dsimp only; rw [ih r D D']
  intro n r
  refine ⟨fun y => ((scale p (y.toNat - 1) ((fun _ _ => 0 : Int → Int → K), r)).2 : K), ?_⟩
  induction n with
  | zero => intro D x y; rw [if_neg (by push_cast; omega)]; rfl
  | succ n ih =>
    intro D x y
    rw [scale_succ]
    dsimp only at ih ⊢
    push_cast
    by_cases hy : y = (n:Int) + 1
    · rw [if_pos hy, if_pos (by omega), ih, if_neg (by omega), hr n r D (fun _ _ => 0)]
      rw [show y.toNat - 1 = n by omega]
    · rw [if_neg hy, ih]
      by_cases h : 1 ≤ y ∧ y ≤ (n:Int)
      · rw [if_pos h, if_pos (by omega)]
      · rw [if_neg h, if_neg (by omega)]

theorem scale_ge (p : Int) (r : Int) (n : Nat) (D : Int → Int → K) (x y : Int) (hy : y ≤ n) : ∀ j : Nat,
    (scale p (n+j) (D, r)).1 x y = (scale p n (D, r)).1 x y
  | 0 => rfl
  | j+1 => by
    rw [← Nat.add_assoc, scale_succ]
    dsimp only
    rw [if_neg (by push_cast; omega)]
    exact scale_ge p r n D x y hy j

theorem basisFunsDers_high (J : Junk K) (i : Int) (u : K) (p j : Nat) (U : Int → K) (x y : Int) (h0 : 0 ≤ x) (h1 : x ≤ p) :
    basisFunsDers J i u p (p+j) U x y =
      if (p:Int) < y ∧ y ≤ p + j then 0 else basisFunsDers J i u p p U x y := by
  unfold basisFunsDers
  dsimp only
  obtain ⟨-, b⟩ := outer_high (j := j) (jLoop i u U J.tri p).ndu
    (J.a, fun x y => if y = 0 then (jLoop i u U J.tri p).ndu x p else J.ders x y) (p+1) (le_refl _)
  obtain ⟨f, hf⟩ := scale_entry (K := K) (p:Int) (p+j) p
  obtain ⟨g, hg⟩ := scale_entry (K := K) (p:Int) p p
  by_cases h : (p:Int) < y ∧ y ≤ p + j
  · have e := (b x y).trans (if_pos (by push_cast; omega))
    rw [if_pos h, hf, if_pos (by push_cast; omega), e, zero_mul]
  · have e := (b x y).trans (if_neg (by push_cast; omega))
    rw [if_neg h]
    by_cases hy : y ≤ (p:Int)
    · rw [scale_ge _ _ _ _ _ _ hy, hg, hg, e]
    · rw [hf, hg, if_neg (by push_cast; omega), if_neg (by omega), e]

/-- **C13** for every requested order `d`, also above the degree: rows `0..d` are the true derivatives, the others are
zero. -/
theorem C13_any_order (J : Junk K) (p d : Nat) (m k : Int) (U : Int → K) (u : K)
    (hs : SortedKnots m U) (hel : IsElement p m U k) (r : Nat) (hr : r ≤ p) (t : Nat) :
    (t ≤ d → basis J k u p d U t r = (derivative^[t] (piece U k p (k - p + r))).eval u) ∧
    (d < t → basis J k u p d U t r = 0) := by
  by_cases hd : d ≤ p
  · exact C13_rows_are_derivatives J p d m k U u hs hel hd r hr t
  · obtain ⟨j, rfl⟩ : ∃ j, d = p + j := ⟨d - p, by omega⟩
    refine ⟨fun ht => ?_, fun ht => ?_⟩
    · unfold basis
      rw [if_pos (by push_cast; omega), basisFunsDers_high J k u p j U r t (by omega) (by omega)]
      by_cases h : t ≤ p
      · rw [if_neg (by omega)]
        have := (C13_rows_are_derivatives J p p m k U u hs hel (le_refl _) r hr t).1 h
        unfold basis at this
        rwa [if_pos (by omega)] at this
      · rw [if_pos (by omega), iterate_derivative_eq_zero]
        · simp
        · have := natDegree_le_of_degree_le (piece_natDegree U k p (k-p+r))
          omega
    · unfold basis
      rw [if_neg (by push_cast; omega)]

/-- Four derivatives of linear splines on the element `[1,2]` of the knots `0,1,2,3`. -/
example : SortedKnots 3 (fun i : Int => (i:Rat)) ∧ IsElement (1:Nat) 3 (fun i : Int => (i:Rat)) 1 ∧
    ((List.range 5).map fun t : Nat => basis ⟨⟨fun _ _ => 7, fun _ => 7, fun _ => 7⟩, fun _ _ => 7, fun _ _ => 7⟩ 1 (3/2 : Rat) 1 4 (fun i => (i:Rat)) t 0) =
      [1/2, -1, 0, 0, 0] := by
  refine ⟨?_, ?_, by decide +kernel⟩
  · intro i _ _; push_cast; linarith
  · exact ⟨by decide, by decide, by norm_num⟩

end PetIGA.Bsp
