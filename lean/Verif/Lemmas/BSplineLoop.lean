import Verif.Lemmas.BSpline
/-! Loop invariants of `BSplineBasisFunsDers`. -/
set_option linter.unusedSectionVars false
namespace PetIGA.Bsp
open PetIGA.Spec Polynomial

variable {K : Type} [Field K]

/-- Value at `u` of the piece on interval `k`. -/
noncomputable def N (U : Int → K) (k : Int) (u : K) (q : Nat) (i : Int) : K := (piece U k q i).eval u

theorem N_succ (U : Int → K) (k : Int) (u : K) (q : Nat) (i : Int) : N U k u (q+1) i =
    (U (i+q+1) - U i)⁻¹ * (u - U i) * N U k u q i
      + (U (i+q+2) - U (i+1))⁻¹ * (U (i+q+2) - u) * N U k u q (i+1) := by
  unfold N; rw [piece_succ]; simp

theorem N_zero (U : Int → K) (k : Int) (u : K) (q : Nat) (i : Int) (h : i < k - q ∨ k < i) :
    N U k u q i = 0 := by
  unfold N; rw [piece_zero U k q i h]; simp

theorem upd2_same (A : Int → Int → K) (i j : Int) (v : K) : upd2 A i j v i j = v := by
  unfold upd2; rw [if_pos ⟨rfl, rfl⟩]

theorem upd2_ne (A : Int → Int → K) {i j x y : Int} (v : K) (h : x ≠ i ∨ y ≠ j) :
    upd2 A i j v x y = A x y := by
  unfold upd2; rw [if_neg (by rintro ⟨a, b⟩; rcases h with h | h <;> contradiction)]

/-- The two triangles of `ndu` up to column/row `c`. -/
structure TriInv (k : Int) (u : K) (U : Int → K) (j : Nat) (ndu : Int → Int → K) : Prop where
  upper : ∀ c : Nat, c ≤ j → ∀ r : Int, 0 ≤ r → r ≤ c → ndu r c = N U k u c (k - c + r)
  lower : ∀ c r : Int, 1 ≤ c → c ≤ j → 0 ≤ r → r < c → ndu c r = U (k+r+1) - U (k+1-c+r)

theorem rLoop_spec {k : Int} {u : K} {U : Int → K} {j' : Nat} {left right : Int → K}
    {ndu0 : Int → Int → K} (h0 : TriInv k u U j' ndu0)
    (hl : ∀ t : Int, 1 ≤ t → t ≤ j'+1 → left t = u - U (k+1-t))
    (hr : ∀ t : Int, 1 ≤ t → t ≤ j'+1 → right t = U (k+t) - u) : ∀ (r : Nat), r ≤ j'+1 →
    TriInv k u U j' (rLoop left right (j'+1) r (ndu0, 0)).1 ∧
    (∀ s : Int, 0 ≤ s → s < r → (rLoop left right (j'+1) r (ndu0, 0)).1 s (j'+1) =
      N U k u (j'+1) (k - (j'+1) + s)) ∧
    (∀ s : Int, 0 ≤ s → s < r → (rLoop left right (j'+1) r (ndu0, 0)).1 (j'+1) s =
      U (k+s+1) - U (k - j' + s)) ∧
    (rLoop left right (j'+1) r (ndu0, 0)).2 =
      (U (k+r) - U (k-(j'+1)+r))⁻¹ * (u - U (k-(j'+1)+r)) * N U k u j' (k - (j'+1) + r)
  | 0, _ => by
    refine ⟨h0, fun s a b => by omega, fun s a b => by omega, ?_⟩
    rw [N_zero U k u j' _ (Or.inl (by push_cast; omega))]
    simp [rLoop]
  | r+1, hle => by
    obtain ⟨i1, i2, i3, i4⟩ := rLoop_spec h0 hl hr r (by omega)
    unfold rLoop
    generalize rLoop left right (j'+1) r (ndu0, 0) = s at i1 i2 i3 i4
    obtain ⟨ndu, saved⟩ := s
    dsimp only at i1 i2 i3 i4 ⊢
    have eR : right ((r:Int)+1) = U (k+(r+1)) - u := hr _ (by omega) (by omega)
    have eL : left ((j':Int)+1-r) = u - U (k - j' + r) := by
      rw [hl _ (by omega) (by omega)]; congr 2; ring
    have eold : ndu (r:Int) (j':Int) = N U k u j' (k - j' + r) := i1.upper j' (le_refl _) r (by omega) (by omega)
    have ej : ((j':Int)+1-1) = j' := by ring
    rw [eR, eL, ej, upd2_same, upd2_ne _ _ (Or.inl (by omega)), eold]
    have eden : U (k + ((r:Int)+1)) - u + (u - U (k - j' + r)) = U (k+r+1) - U (k-j'+r) := by
      rw [show k + ((r:Int)+1) = k + r + 1 by ring]; ring
    rw [eden]
    refine ⟨⟨?_, ?_⟩, ?_, ?_, ?_⟩
    · intro c hc s hs hsc
      rw [upd2_ne _ _ (Or.inr (by omega)), upd2_ne _ _ (Or.inl (by omega))]
      exact i1.upper c hc s hs hsc
    · intro c s h1 h2 h3 h4
      rw [upd2_ne _ _ (Or.inr (by omega)), upd2_ne _ _ (Or.inl (by omega))]
      exact i1.lower c s h1 h2 h3 h4
    · intro s hs hsr
      rcases eq_or_ne s r with h | h
      · subst h
        rw [upd2_same, i4, N_succ]
        have e1 : k - ((j':Int)+1) + r + j' + 1 = k + r := by ring
        have e2 : k - ((j':Int)+1) + r + j' + 2 = k + r + 1 := by ring
        have e3 : k - ((j':Int)+1) + r + 1 = k - j' + r := by ring
        rw [e1, e2, e3, show k + ((r:Int)+1) = k + r + 1 by ring]
        ring
      · rw [upd2_ne _ _ (Or.inl h), upd2_ne _ _ (Or.inl (by push_cast at hsr; omega))]
        exact i2 s hs (by push_cast at hsr; omega)
    · intro s hs hsr
      rcases eq_or_ne s r with h | h
      · subst h
        rw [upd2_ne _ _ (Or.inl (by omega)), upd2_same]
      · rw [upd2_ne _ _ (Or.inl (by push_cast at hsr; omega)), upd2_ne _ _ (Or.inr h)]
        exact i3 s hs (by push_cast at hsr; omega)
    · push_cast
      have e1 : k + ((r:Int)+1) = k + r + 1 := by ring
      have e2 : k - ((j':Int)+1) + (r+1) = k - j' + r := by ring
      rw [e1, e2]; ring

theorem jLoop_spec {k : Int} {u : K} {U : Int → K} {t0 : Tri K} : ∀ (j : Nat),
    TriInv k u U j (jLoop k u U t0 j).ndu ∧
    (∀ t : Int, 1 ≤ t → t ≤ j → (jLoop k u U t0 j).left t = u - U (k+1-t)) ∧
    (∀ t : Int, 1 ≤ t → t ≤ j → (jLoop k u U t0 j).right t = U (k+t) - u)
  | 0 => by
    refine ⟨⟨?_, fun c r a b => by omega⟩, fun t a b => by omega, fun t a b => by omega⟩
    intro c hc r h1 h2
    have : c = 0 := by omega
    subst this
    have : r = 0 := by push_cast at h2; omega
    subst this
    simp [jLoop, upd2, N, piece]
  | j'+1 => by
    obtain ⟨a, b, c⟩ := jLoop_spec (k := k) (u := u) (U := U) (t0 := t0) j'
    unfold jLoop
    dsimp only
    have hl : ∀ t : Int, 1 ≤ t → t ≤ j'+1 →
        upd1 (jLoop k u U t0 j').left ((j':Int)+1) (u - U (k+1-((j':Int)+1))) t = u - U (k+1-t) := by
      intro t h1 h2
      unfold upd1
      split
      · rename_i h; rw [h]
      · exact b t h1 (by omega)
    have hr : ∀ t : Int, 1 ≤ t → t ≤ j'+1 →
        upd1 (jLoop k u U t0 j').right ((j':Int)+1) (U (k+((j':Int)+1)) - u) t = U (k+t) - u := by
      intro t h1 h2
      unfold upd1
      split
      · rename_i h; rw [h]
      · exact c t h1 (by omega)
    obtain ⟨i1, i2, i3, i4⟩ := rLoop_spec a hl hr (j'+1) (le_refl _)
    refine ⟨⟨?_, ?_⟩, by simpa using hl, by simpa using hr⟩
    · intro cc hcc r h1 h2
      rcases eq_or_ne cc (j'+1) with h | h
      · subst h
        rcases eq_or_ne r ((j':Int)+1) with h' | h'
        · subst h'
          push_cast
          rw [upd2_same, i4, N_succ]
          have e1 : k - ((j':Int)+1) + ((j'+1:Nat):Int) = k := by push_cast; ring
          have e2 : k + ((j'+1:Nat):Int) = k + j' + 1 := by push_cast; ring
          have e3 : k - ((j':Int)+1) + ((j':Int)+1) = k := by ring
          rw [e1, e2, e3, N_zero U k u j' (k+1) (Or.inr (by omega))]
          ring
        · push_cast at h2 ⊢
          rw [upd2_ne _ _ (Or.inl h')]
          exact i2 r h1 (by push_cast; omega)
      · rw [upd2_ne _ _ (Or.inr (by omega))]
        exact i1.upper cc (by omega) r h1 h2
    · intro cc r h1 h2 h3 h4
      rw [upd2_ne _ _ (Or.inr (by push_cast at h2; omega))]
      rcases eq_or_ne cc ((j':Int)+1) with h | h
      · subst h
        rw [i3 r h3 (by push_cast; omega)]
        congr 2; ring
      · exact i1.lower cc r h1 (by push_cast at h2; omega) h3 h4

/-- Partial sums of `Σ_j aS t j · N (l+j)`. -/
noncomputable def pS (U : Int → K) (k l : Int) (u : K) (p t : Nat) (x : Nat) : K :=
  ∑ j ∈ Finset.range x, aS U l p t j * N U k u (p-t) (l+j)

theorem pS_succ (U : Int → K) (k l : Int) (u : K) (p t x : Nat) :
    pS U k l u p t (x+1) = pS U k l u p t x + aS U l p t x * N U k u (p-t) (l+x) := by
  unfold pS; rw [Finset.sum_range_succ]

theorem pS_low (U : Int → K) (k l : Int) (u : K) (p t : Nat) : ∀ x : Nat,
    (∀ j : Nat, j < x → l + j < k - ((p-t:Nat):Int)) → pS U k l u p t x = 0
  | 0, _ => by simp [pS]
  | x+1, h => by
    rw [pS_succ, pS_low U k l u p t x (fun j hj => h j (by omega)),
      N_zero U k u _ _ (Or.inl (h x (by omega)))]
    ring

theorem pS_high (U : Int → K) (k l : Int) (u : K) (p t x : Nat) : ∀ y : Nat,
    (∀ j : Nat, x ≤ j → k < l + j) → pS U k l u p t (x+y) = pS U k l u p t x
  | 0, _ => by simp
  | y+1, h => by
    rw [← add_assoc, pS_succ, pS_high U k l u p t x y h, N_zero U k u _ _ (Or.inr (h _ (by omega)))]
    ring

/-- In-range entries of row `s` of `a` after level `t`. -/
def ARow (U : Int → K) (l : Int) (p r : Nat) (t : Nat) (a : Int → Int → K) (s : Int) : Prop :=
  ∀ j : Int, 0 ≤ j → j ≤ t → 0 ≤ (r:Int) - t + j → (r:Int) - t + j ≤ p - t → a s j = aS U l p t j

theorem aLoop_spec {U : Int → K} {k : Int} {u : K} {p r t : Nat} {ndu : Int → Int → K} {s1 s2 : Int}
    (hn : TriInv k u U p ndu) (hs : s1 ≠ s2) (hr : r ≤ p) (ht : t + 1 ≤ p)
    {a0 : Int → Int → K} {d0 : K} (j1 : Nat) (hj1 : 1 ≤ j1) (hj1' : 0 ≤ (r:Int) - (t+1) + j1)
    (ha : ARow U (k-p+r) p r t a0 s1) (hd : d0 = pS U k (k-p+r) u p (t+1) j1)
    (hlow : ∀ j : Int, 0 ≤ j → j < j1 → 0 ≤ (r:Int) - (t+1) + j → a0 s2 j = aS U (k-p+r) p (t+1) j) :
    ∀ (c : Nat), ((j1:Int) + c ≤ t + 1) → ((j1:Int) + c ≤ p - r + 1) →
    ARow U (k-p+r) p r t (aLoop ndu ((p:Int)-(t+1)) ((r:Int)-(t+1)) s1 s2 j1 c (a0, d0)).1 s1 ∧
    (aLoop ndu ((p:Int)-(t+1)) ((r:Int)-(t+1)) s1 s2 j1 c (a0, d0)).2
      = pS U k (k-p+r) u p (t+1) (j1+c) ∧
    (∀ j : Int, 0 ≤ j → j < j1 + c → 0 ≤ (r:Int) - (t+1) + j →
      (aLoop ndu ((p:Int)-(t+1)) ((r:Int)-(t+1)) s1 s2 j1 c (a0, d0)).1 s2 j = aS U (k-p+r) p (t+1) j)
  | 0, _, _ => ⟨ha, by simpa [aLoop] using hd, by simpa [aLoop] using hlow⟩
  | c+1, h1, h2 => by
    push_cast at h1 h2
    obtain ⟨i1, i2, i3⟩ := aLoop_spec hn hs hr ht j1 hj1 hj1' ha hd hlow c (by omega) (by omega)
    unfold aLoop
    generalize aLoop ndu ((p:Int)-(t+1)) ((r:Int)-(t+1)) s1 s2 j1 c (a0, d0) = s at i1 i2 i3
    obtain ⟨a, d⟩ := s
    dsimp only at i1 i2 i3 ⊢
    have eA : a s1 ((j1:Int)+c) = aS U (k-p+r) p t ((j1:Int)+c) :=
      i1 _ (by omega) (by omega) (by omega) (by omega)
    have eB : a s1 ((j1:Int)+c-1) = aS U (k-p+r) p t ((j1:Int)+c-1) :=
      i1 _ (by omega) (by omega) (by omega) (by omega)
    have eD : ndu ((p:Int)-(t+1)+1) ((r:Int)-(t+1)+((j1:Int)+c)) =
        U (k-p+r+p-t+((j1:Int)+c)) - U (k-p+r+((j1:Int)+c)) := by
      rw [hn.lower _ _ (by omega) (by omega) (by omega) (by omega)]
      congr 2 <;> ring
    have eN : ndu ((r:Int)-(t+1)+((j1:Int)+c)) ((p:Int)-(t+1)) = N U k u (p-(t+1)) (k-p+r+((j1:Int)+c)) := by
      have : ((p:Int)-(t+1)) = ((p-(t+1):Nat):Int) := by omega
      rw [this, hn.upper (p-(t+1)) (by omega) _ (by omega) (by omega)]
      congr 1; omega
    have eS : (aS U (k-p+r) p t ((j1:Int)+c) - aS U (k-p+r) p t ((j1:Int)+c-1)) /
        (U (k-p+r+p-t+((j1:Int)+c)) - U (k-p+r+((j1:Int)+c))) = aS U (k-p+r) p (t+1) ((j1:Int)+c) := rfl
    rw [upd2_same, eA, eB, eD, eN, eS, i2]
    refine ⟨?_, ?_, ?_⟩
    · intro j a1 a2 a3 a4
      rw [upd2_ne _ _ (Or.inl hs)]
      exact i1 j a1 a2 a3 a4
    · rw [show j1 + (c+1) = (j1+c)+1 by ring, pS_succ]
      push_cast
      rfl
    · intro j a1 a2 a3
      rcases eq_or_ne j ((j1:Int)+c) with h | h
      · subst h; rw [upd2_same]
      · rw [upd2_ne _ _ (Or.inr h)]
        exact i3 j a1 (by push_cast at a2; omega) a3

theorem kStep_spec {U : Int → K} {k : Int} {u : K} {p r t : Nat} {ndu : Int → Int → K}
    (hn : TriInv k u U p ndu) (hr : r ≤ p) (ht : t + 1 ≤ p) {s : DS K} (hs : s.s1 ≠ s.s2)
    (ha : ARow U (k-p+r) p r t s.a s.s1) :
    ARow U (k-p+r) p r (t+1) (kStep p r ndu (t+1) s).a (kStep p r ndu (t+1) s).s1 ∧
    (kStep p r ndu (t+1) s).s1 = s.s2 ∧ (kStep p r ndu (t+1) s).s2 = s.s1 ∧
    (kStep p r ndu (t+1) s).ders = upd2 s.ders r (t+1) (pS U k (k-p+r) u p (t+1) (t+2)) := by
  -- the first conditional, the loop bounds
  have hfirst : ∃ a0 : Int → Int → K, ∃ d0 : K, ∃ j1 : Nat,
      (if (r:Int) ≥ (t:Int)+1 then
        (upd2 s.a s.s2 0 (s.a s.s1 0 / ndu ((p:Int)-(t+1)+1) ((r:Int)-(t+1))),
         upd2 s.a s.s2 0 (s.a s.s1 0 / ndu ((p:Int)-(t+1)+1) ((r:Int)-(t+1))) s.s2 0
            * ndu ((r:Int)-(t+1)) ((p:Int)-(t+1)))
       else (s.a, 0)) = (a0, d0) ∧
      (if (r:Int) - (t+1) > -1 then 1 else -((r:Int)-(t+1))) = (j1:Int) ∧
      1 ≤ j1 ∧ 0 ≤ (r:Int) - (t+1) + j1 ∧ ((j1 = 1 ∧ t + 1 ≤ r) ∨ (j1:Int) = t + 1 - r) ∧
      ARow U (k-p+r) p r t a0 s.s1 ∧ d0 = pS U k (k-p+r) u p (t+1) j1 ∧
      (∀ j : Int, 0 ≤ j → j < j1 → 0 ≤ (r:Int) - (t+1) + j → a0 s.s2 j = aS U (k-p+r) p (t+1) j) := by
    by_cases hc : (r:Int) ≥ (t:Int)+1
    · rw [if_pos hc, if_pos (by omega)]
      have eA : s.a s.s1 0 = aS U (k-p+r) p t 0 := ha 0 (by omega) (by omega) (by omega) (by omega)
      have eD : ndu ((p:Int)-(t+1)+1) ((r:Int)-(t+1)) = U (k-p+r+p-t+0) - U (k-p+r+0) := by
        rw [hn.lower _ _ (by omega) (by omega) (by omega) (by omega)]
        congr 2 <;> ring
      have eN : ndu ((r:Int)-(t+1)) ((p:Int)-(t+1)) = N U k u (p-(t+1)) (k-p+r+((0:Nat):Int)) := by
        have : ((p:Int)-(t+1)) = ((p-(t+1):Nat):Int) := by omega
        rw [this, hn.upper (p-(t+1)) (by omega) _ (by omega) (by omega)]
        congr 1; push_cast; omega
      have eS : aS U (k-p+r) p t 0 / (U (k-p+r+p-t+0) - U (k-p+r+0)) = aS U (k-p+r) p (t+1) 0 := by
        rw [aS, aS_zero U _ p t (0-1) (Or.inl (by omega)), sub_zero]
      rw [eA, eD, eS, upd2_same, eN]
      refine ⟨_, _, 1, rfl, rfl, le_refl _, by push_cast; omega, Or.inl ⟨rfl, by omega⟩, ?_, ?_, ?_⟩
      · intro j a1 a2 a3 a4
        rw [upd2_ne _ _ (Or.inl hs)]; exact ha j a1 a2 a3 a4
      · rw [pS_succ]; simp [pS]
      · intro j a1 a2 a3
        have : j = 0 := by push_cast at a2; omega
        subst this; rw [upd2_same]
    · rw [if_neg hc, if_neg (by omega)]
      refine ⟨_, _, (t+1-r), rfl, by omega, by omega, by omega, Or.inr (by omega), ha, ?_, ?_⟩
      · rw [pS_low]
        intro j hj; omega
      · intro j a1 a2 a3; omega
  obtain ⟨a0, d0, j1, e1, e2, hj1, hj1', hj1'', hA, hD, hL⟩ := hfirst
  have hj2 : ∃ c : Nat, ((if (r:Int) - 1 ≤ (p:Int)-(t+1) then ((t:Int)+1) - 1 else (p:Int) - r) - j1 + 1).toNat = c ∧
      (j1:Int) + c ≤ t + 1 ∧ (j1:Int) + c ≤ p - r + 1 ∧
      (((r:Int) ≤ (p:Int)-(t+1) ∧ j1 + c = t+1) ∨ (¬ (r:Int) ≤ (p:Int)-(t+1) ∧ (j1:Int) + c = p - r + 1)) := by
    refine ⟨_, rfl, ?_⟩
    split <;> omega
  obtain ⟨c, e3, hc1, hc2, hc3⟩ := hj2
  obtain ⟨i1, i2, i3⟩ := aLoop_spec hn hs hr ht j1 hj1 hj1' hA hD hL c hc1 hc2
  unfold kStep
  dsimp only
  rw [e1]
  dsimp only
  rw [e2, e3]
  generalize aLoop ndu ((p:Int)-(t+1)) ((r:Int)-(t+1)) s.s1 s.s2 j1 c (a0, d0) = w at i1 i2 i3
  obtain ⟨a, d⟩ := w
  dsimp only at i1 i2 i3 ⊢
  rcases hc3 with ⟨h, hjc⟩ | ⟨h, hjc⟩
  · rw [if_pos h]
    dsimp only
    have eA : a s.s1 ((t:Int)+1-1) = aS U (k-p+r) p t ((t:Int)+1-1) :=
      i1 _ (by omega) (by omega) (by omega) (by omega)
    have eD : ndu ((p:Int)-(t+1)+1) (r:Int) = U (k-p+r+p-t+((t:Int)+1)) - U (k-p+r+((t:Int)+1)) := by
      rw [hn.lower _ _ (by omega) (by omega) (by omega) (by omega)]
      congr 2 <;> ring
    have eN : ndu (r:Int) ((p:Int)-(t+1)) = N U k u (p-(t+1)) (k-p+r+((t+1:Nat):Int)) := by
      have : ((p:Int)-(t+1)) = ((p-(t+1):Nat):Int) := by omega
      rw [this, hn.upper (p-(t+1)) (by omega) _ (by omega) (by omega)]
      congr 1; push_cast; omega
    have eS : - aS U (k-p+r) p t ((t:Int)+1-1) / (U (k-p+r+p-t+((t:Int)+1)) - U (k-p+r+((t:Int)+1)))
        = aS U (k-p+r) p (t+1) ((t:Int)+1) := by
      rw [aS, aS_zero U _ p t ((t:Int)+1) (Or.inr (by omega)), zero_sub]
    rw [eA, eD, eS, upd2_same, eN]
    refine ⟨?_, by simp, by simp, ?_⟩
    · intro j a1 a2 a3 a4
      push_cast at a2 a3 a4
      rcases eq_or_ne j ((t:Int)+1) with h' | h'
      · subst h'; rw [upd2_same]
      · rw [upd2_ne _ _ (Or.inr h')]
        exact i3 j a1 (by omega) a3
    · rw [i2, hjc, show t + 2 = (t+1)+1 by ring, pS_succ U k _ u p (t+1) (t+1)]
      push_cast
      rfl
  · rw [if_neg h]
    refine ⟨?_, by simp, by simp, ?_⟩
    · intro j a1 a2 a3 a4
      push_cast at a2 a3 a4
      exact i3 j a1 (by omega) a3
    · rw [i2]
      obtain ⟨y, hy⟩ : ∃ y, t + 2 = (j1 + c) + y := ⟨t+2-(j1+c), by omega⟩
      rw [hy, pS_high U k _ u p (t+1) (j1+c) y]
      intro j hj; omega

theorem kLoop_spec {U : Int → K} {k : Int} {u : K} {p r : Nat} {ndu : Int → Int → K}
    (hn : TriInv k u U p ndu) (hr : r ≤ p) {s : DS K} (hs : s.s1 ≠ s.s2)
    (ha : s.a s.s1 0 = 1) : ∀ (t : Nat), t ≤ p →
    ARow U (k-p+r) p r t (kLoop p r ndu t s).a (kLoop p r ndu t s).s1 ∧
    (kLoop p r ndu t s).s1 ≠ (kLoop p r ndu t s).s2 ∧
    (∀ x y : Int, (x ≠ r ∨ y ≤ 0 ∨ (t:Int) < y) → (kLoop p r ndu t s).ders x y = s.ders x y) ∧
    (∀ q : Nat, 1 ≤ q → q ≤ t → (kLoop p r ndu t s).ders r q = pS U k (k-p+r) u p q (q+1))
  | 0, _ => by
    refine ⟨?_, hs, fun x y _ => rfl, fun q a b => by omega⟩
    intro j a1 a2 a3 a4
    have : j = 0 := by push_cast at a2; omega
    subst this
    simp [kLoop, ha, aS]
  | t+1, h => by
    obtain ⟨i1, i2, i3, i4⟩ := kLoop_spec hn hr hs ha t (by omega)
    obtain ⟨j1, j2, j3, j4⟩ := kStep_spec hn hr h i2 i1
    unfold kLoop
    refine ⟨j1, ?_, ?_, ?_⟩
    · rw [j2, j3]; exact i2.symm
    · intro x y hxy
      push_cast at hxy
      rw [j4, upd2_ne _ _ (by omega)]
      exact i3 x y (by omega)
    · intro q a b
      rw [j4]
      rcases eq_or_ne q (t+1) with h' | h'
      · subst h'; push_cast; rw [upd2_same]
      · rw [upd2_ne _ _ (Or.inr (by omega))]
        exact i4 q a (by omega)

theorem outer_spec {U : Int → K} {k : Int} {u : K} {p n : Nat} {ndu : Int → Int → K}
    (hn : TriInv k u U p ndu) (hnp : n ≤ p) (s : (Int → Int → K) × (Int → Int → K)) :
    ∀ (r : Nat), r ≤ p+1 →
    (∀ x : Int, (outer p n ndu r s).2 x 0 = s.2 x 0) ∧
    (∀ x q : Nat, x < r → 1 ≤ q → q ≤ n → (outer p n ndu r s).2 x q = pS U k (k-p+x) u p q (q+1))
  | 0, _ => ⟨fun x => rfl, fun x q a => by omega⟩
  | r+1, h => by
    obtain ⟨i1, i2⟩ := outer_spec hn hnp s r (by omega)
    unfold outer
    dsimp only
    obtain ⟨_, _, j3, j4⟩ := kLoop_spec (s := (⟨upd2 (outer p n ndu r s).1 0 0 1, 0, 1,
      (outer p n ndu r s).2⟩ : DS K)) hn (r := r) (by omega) (by simp) (by simp [upd2]) n hnp
    constructor
    · intro x
      rw [j3 x 0 (by omega)]
      exact i1 x
    · intro x q a b c
      rcases eq_or_ne x r with h' | h'
      · subst h'; exact j4 q b c
      · rw [j3 x q (by omega)]; exact i2 x q (by omega) b c

theorem scale_spec {p : Nat} (s : Int → Int → K) : ∀ (n : Nat), n ≤ p →
    (scale p n (s, (p:Int))).2 = ((p.descFactorial (n+1) : Nat) : Int) ∧
    (∀ x : Int, ∀ y : Nat, (scale p n (s, (p:Int))).1 x y =
      if 1 ≤ y ∧ y ≤ n then s x y * ((p.descFactorial y : Nat) : K) else s x y)
  | 0, _ => by
    refine ⟨by simp [scale], fun x y => ?_⟩
    rw [if_neg (fun h => by omega)]; rfl
  | n+1, h => by
    obtain ⟨i1, i2⟩ := scale_spec (p := p) s n (by omega)
    unfold scale
    generalize scale (p:Int) n (s, (p:Int)) = w at i1 i2
    obtain ⟨d, r⟩ := w
    dsimp only at i1 i2 ⊢
    constructor
    · rw [i1, Nat.descFactorial_succ (k := n+1)]
      push_cast [Nat.cast_sub h]
      ring
    · intro x y
      by_cases hy : y = n+1
      · subst hy
        rw [if_pos (by push_cast; rfl), if_pos (by omega), i2, if_neg (by omega), i1]
        push_cast; rfl
      · rw [if_neg (by omega), i2]
        by_cases h' : 1 ≤ y ∧ y ≤ n
        · rw [if_pos h', if_pos (by omega)]
        · rw [if_neg h', if_neg (by omega)]

/-- The kernel computes all derivatives of all pieces. -/
theorem basisFunsDers_spec (J : Junk K) (k : Int) (u : K) (p n : Nat) (U : Int → K)
    (hs : Sep U k p) (hn : n ≤ p) (r t : Nat) (hr : r ≤ p) (ht : t ≤ n) :
    basisFunsDers J k u p n U r t = (derivative^[t] (piece U k p (k-p+r))).eval u := by
  unfold basisFunsDers
  dsimp only
  have hT := (jLoop_spec (k := k) (u := u) (U := U) (t0 := J.tri) p).1
  generalize (jLoop k u U J.tri p).ndu = ndu at hT
  obtain ⟨i1, i2⟩ := outer_spec hT hn (J.a, fun x y => if y = 0 then ndu x p else J.ders x y) (p+1) (le_refl _)
  rw [(scale_spec _ n hn).2 r t]
  rcases Nat.eq_zero_or_pos t with h | h
  · subst h
    rw [if_neg (by omega)]
    push_cast
    rw [i1]
    simp only [if_true, Function.iterate_zero, id]
    rw [hT.upper p (le_refl _) r (by omega) (by omega)]
    rfl
  · rw [if_pos ⟨h, ht⟩, i2 r t (by omega) h ht, piece_iter_derivative U k _ p hs t (by omega), eval_mul,
      eval_C, eval_finset_sum, mul_comm]
    unfold pS N
    simp

end PetIGA.Bsp
