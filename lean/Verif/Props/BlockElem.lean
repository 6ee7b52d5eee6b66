import Verif.Props.Block
/-! Property theorems about the element blocks of `PCEBE` (C76). -/
set_option linter.unusedSectionVars false
namespace PetIGA.Blk
open PetIGA.Spec PetIGA.Part PetIGA.Lay PetIGA.Ax PetIGA.Grid PetIGA.Asm

variable {K : Type} [Field K] [LinearOrder K] [IsStrictOrderedRing K]
variable {g2 : Guess2} {g3 : Guess3} {colloc : Bool} {size : Int} {procs : List Int} {axes axs : List (Axis K)}
  {Ls : List (Layout K)}

/-- Every owned node of a direction is a function of some owned element. -/
def Covered (colloc : Bool) (ax : Axis K) (d : Dir) : Prop :=
  ∀ v : Int, d.nodeLstart ≤ v → v < d.nodeLstart + d.nodeLwidth →
    ∃ e t : Int, d.elemStart ≤ e ∧ e < d.elemStart + d.elemWidth ∧ 0 ≤ t ∧ t < ax.p + 1 ∧ firstNode colloc ax e + t = v

theorem gal_search {ax : Axis K} (h : PreWF ax) {v : Int} : ∀ (n : Nat) (e : Int), 0 ≤ e → e + n < ax.nel → sp ax e - ax.p ≤ v →
    v ≤ sp ax (e + n) → ∃ e', e ≤ e' ∧ e' ≤ e + n ∧ sp ax e' - ax.p ≤ v ∧ v ≤ sp ax e'
  | 0, e, _, _, h1, h2 => ⟨e, le_refl _, by simp, h1, by simpa using h2⟩
  | n+1, e, h0, hn, h1, h2 => by
    by_cases hv : v ≤ sp ax e
    · exact ⟨e, le_refl _, by omega, h1, hv⟩
    · push_cast at hn h2
      have := gal_next_le h (e := e) h0 (by omega)
      obtain ⟨e', a, b, c, d⟩ := gal_search (v := v) h n (e+1) (by omega) (by omega) (by omega) (by rw [show e + 1 + (n:Int) = e + (n + 1) by ring]; exact h2)
      exact ⟨e', by omega, by push_cast; omega, c, d⟩

theorem covered {ax : Axis K} {P r : Int} (h : WF ax) (hc : Condition colloc ax) (hP : 1 ≤ P)
    (hN : P ≤ gridSize colloc ax) (h0 : 0 ≤ r) (h1 : r < P) : Covered colloc ax (dirAt colloc ax P r) := by
  intro v hv hv'
  have hW := dirW h hc hP hN h0 h1
  have ho := hW.ok.ok.ghost.owned
  have hp := h.legal.degree
  cases colloc
  · obtain ⟨a, b, c, d, e⟩ := bal_range (N := ax.nel) hP hN h0 h1
    change (galDir ax P r).nodeLstart ≤ v at hv
    change v < (galDir ax P r).nodeLstart + (galDir ax P r).nodeLwidth at hv'
    change (galDir ax P r).nodeGstart ≤ (galDir ax P r).nodeLstart ∧ (galDir ax P r).nodeLstart + (galDir ax P r).nodeLwidth ≤
      (galDir ax P r).nodeGstart + (galDir ax P r).nodeGwidth at ho
    show ∃ e t : Int, (galDir ax P r).elemStart ≤ e ∧ e < (galDir ax P r).elemStart + (galDir ax P r).elemWidth ∧ _
    have ho2 := ho.2
    have hb := lt_of_lt_of_le hv' ho2
    dsimp only [galDir] at hv hb ⊢
    obtain ⟨e', i1, i2, i3, i4⟩ := gal_search h.toPreWF (v := v) ((dist1D P r ax.nel).1 - 1).toNat (dist1D P r ax.nel).2 a (by omega) hv (by
      rw [show (dist1D P r ax.nel).2 + (((dist1D P r ax.nel).1 - 1).toNat : Int) = (dist1D P r ax.nel).2 + (dist1D P r ax.nel).1 - 1 by omega]
      omega)
    refine ⟨e', v - (sp ax e' - ax.p), by omega, by omega, by omega, by omega, ?_⟩
    unfold firstNode spanOf shiftOf
    simp only [Bool.false_eq_true, if_false]
    rw [spanAt_ok h.toPreWF (by omega) (by omega)]
    ring
  · obtain ⟨a, b, c, d, e⟩ := bal_range (N := ax.nnp) hP hN h0 h1
    obtain ⟨s1, s2, s3⟩ := shift_bounds h
    obtain ⟨G1, G2⟩ := gsp_spec h.toPreWF
    change (colDir ax P r).nodeLstart ≤ v at hv
    change v < (colDir ax P r).nodeLstart + (colDir ax P r).nodeLwidth at hv'
    show ∃ e t : Int, (colDir ax P r).elemStart ≤ e ∧ e < (colDir ax P r).elemStart + (colDir ax P r).elemWidth ∧ _
    dsimp only [colDir] at hv hv' ⊢
    have hsh := tdiv_shift h
    obtain ⟨q1, q2, q3, q4, q5⟩ := G1 (v + (ax.m - ax.p - ax.nnp) / 2) (by omega) (by omega)
    refine ⟨v, v - (gsp ax (v + (ax.m - ax.p - ax.nnp) / 2) - ax.p - (ax.m - ax.p - ax.nnp) / 2), by omega, by omega, by omega, by omega, ?_⟩
    unfold firstNode spanOf shiftOf
    simp only [if_true]
    rw [q1]
    ring

theorem covered_list {axs : List (Axis K)} {ds : List Dir} (h : List.Forall₂ (Covered colloc) axs ds) :
    ∀ {v : List Int}, InBlock (ds.map Dir.nodeLstart) (ds.map Dir.nodeLwidth) v →
      ∃ e t, InBlock (ds.map Dir.elemStart) (ds.map Dir.elemWidth) e ∧ InBox (nens axs) t ∧ plus (firstNodes colloc axs e) t = v := by
  induction h with
  | nil => intro v hv; cases hv; exact ⟨[], [], .nil, .nil, rfl⟩
  | cons h1 h2 ih =>
    intro v hv
    simp only [List.map_cons] at hv
    cases hv with
    | @cons _ _ i _ _ is b1 b2 =>
      obtain ⟨e, t, a1, a2, a3⟩ := ih b2
      obtain ⟨e0, t0, c1, c2, c3, c4, c5⟩ := h1 i b1.1 b1.2
      refine ⟨e0 :: e, t0 :: t, .cons ⟨c1, c2⟩ a1, .cons ⟨c3, c4⟩ a2, ?_⟩
      unfold plus firstNodes at a3 ⊢
      simp only [List.zipWith_cons_cons, a3, c5]

/-- Two functions of one element stand for the same node only if they are the same function. -/
theorem closure_inj {axs : List (Axis K)} (hn : ∀ ax ∈ axs, ax.p + 1 ≤ ax.nnp ∧ 1 ≤ ax.p) : ∀ {f t t' : List Int}, f.length = axs.length →
    InBox (nens axs) t → InBox (nens axs) t' → modAll (axs.map Axis.nnp) (plus f t) = modAll (axs.map Axis.nnp) (plus f t') → t = t' := by
  induction axs with
  | nil => intro f t t' _ h h' _; cases h; cases h'; rfl
  | cons ax axs ih =>
    intro f t t' hf h h' he
    cases f with
    | nil => simp at hf
    | cons f fs =>
      unfold nens at h h'
      simp only [List.map_cons] at h h'
      cases h with
      | cons a1 a2 =>
        cases h' with
        | @cons _ j _ js b1 b2 =>
          unfold plus modAll at he
          simp only [List.map_cons, List.zipWith_cons_cons, List.cons.injEq] at he
          have := ih (fun a ha => hn a (by simp [ha])) (f := fs) (by simpa using hf) a2 b2 he.2
          subst this
          have hh := hn ax (by simp)
          have hm := Int.emod_emod_of_dvd (f + j) (dvd_refl ax.nnp)
          have hd : ax.nnp ∣ (f + _) - (f + j) := Int.dvd_of_emod_eq_zero (Int.emod_eq_emod_iff_emod_sub_eq_zero.1 he.1)
          obtain ⟨q, hq⟩ := hd
          congr 1
          rcases lt_trichotomy q 0 with hq' | hq' | hq'
          · have : ax.nnp * q ≤ ax.nnp * (-1) := mul_le_mul_of_nonneg_left (by omega) (by omega)
            omega
          · subst hq'; omega
          · have : ax.nnp * 1 ≤ ax.nnp * q := mul_le_mul_of_nonneg_left (by omega) (by omega)
            omega

/-- **C76**.  After any successful setup, the element-by-element preconditioner computes for every element (or
collocation point) `x` of the process, without reading outside the map or writing outside its array, the unknowns of
those functions of the element whose node the process owns.  If every direction has at least `p+1` nodes no unknown is
repeated.  Every owned node is in the block of some element of the process. -/
theorem C76_element_blocks (S : Setup g2 g3 colloc size procs axes axs Ls) {r : Nat} {L : Layout K} (h : Ls[r]? = some L) (bs : Nat) :
    ∃ block : List Int → List Int,
      (∀ x, InBlock (L.dir.map Dir.elemStart) (L.dir.map Dir.elemWidth) x →
        ebeBlock (world (appWorld Ls)) bs colloc L.axes L.dir r x = .ok (block x) ∧
        (∀ i : Int, i ∈ block x ↔ ∃ (t : List Int) (c : Nat), InBox (nens axs) t ∧
          InBlock (L.dir.map Dir.nodeLstart) (L.dir.map Dir.nodeLwidth) (modAll (axs.map Axis.nnp) (plus (firstNodes colloc axs x) t)) ∧
          c < bs ∧ i = unknown Ls axs bs (modAll (axs.map Axis.nnp) (plus (firstNodes colloc axs x) t)) c) ∧
        ((∀ ax ∈ axs, ax.p + 1 ≤ ax.nnp) → (block x).Nodup)) ∧
      ∀ v c, InBlock (L.dir.map Dir.nodeLstart) (L.dir.map Dir.nodeLwidth) v → c < bs →
        ∃ x, InBlock (L.dir.map Dir.elemStart) (L.dir.map Dir.elemWidth) x ∧ unknown Ls axs bs v c ∈ block x := by
  obtain ⟨hS, hax, hd, hg⟩ := S.get h
  obtain ⟨D, hNs⟩ := S.grid
  have hcov := setup_dirs S h (R := Covered colloc) (fun ax P r a b c d e f => covered a b c d e f)
  have os : ownStart (world (appWorld Ls)) r = L.dir.map Dir.nodeLstart := by rw [(own_get hg).1, List.map_map]; rfl
  have ow : ownWidth (world (appWorld Ls)) r = L.dir.map Dir.nodeLwidth := by rw [(own_get hg).2.1, List.map_map]; rfl
  obtain ⟨-, inj, -, own, -, -, -⟩ := C26_global_numbering _ _ D hNs
  have hpos : ∀ ax ∈ axs, 1 ≤ ax.p := by
    intro ax ha
    obtain ⟨i, hi⟩ := List.getElem?_of_mem ha
    have hlt := (List.getElem?_eq_some_iff.1 hi).1
    have := (List.forall₂_iff_get.1 hd).2 i hlt (by rw [← hd.length_eq]; exact hlt)
    have e : axs.get ⟨i, hlt⟩ = ax := by simpa using (List.getElem?_eq_some_iff.1 hi).2
    rw [e] at this
    exact this.deg
  have key : ∀ x, InBlock (L.dir.map Dir.elemStart) (L.dir.map Dir.elemWidth) x → ∃ idx : List Int,
        ebeBlock (world (appWorld Ls)) bs colloc L.axes L.dir r x = .ok idx ∧
        (∀ i : Int, i ∈ idx ↔ ∃ (t : List Int) (c : Nat), InBox (nens axs) t ∧
          InBlock (L.dir.map Dir.nodeLstart) (L.dir.map Dir.nodeLwidth) (modAll (axs.map Axis.nnp) (plus (firstNodes colloc axs x) t)) ∧
          c < bs ∧ i = unknown Ls axs bs (modAll (axs.map Axis.nnp) (plus (firstNodes colloc axs x) t)) c) ∧
        ((∀ ax ∈ axs, ax.p + 1 ≤ ax.nnp) → idx.Nodup) := by
    intro x hx
    obtain ⟨cds, map, row, h1, h2, -, -, h3, -, h4, -⟩ := elem_ok S h (V := Unit) (dof := 0) (gvec := fun _ => ()) (u := fun _ _ => ())
      (fun _ _ _ _ => rfl) (fun _ => ()) hx
    obtain ⟨cds', c1, -, c2, -, -, -, -, c3, -⟩ := cdirs_ok colloc hd hx
    rw [hax] at h1
    rw [h1] at c1
    simp only [Res.ok.injEq] at c1
    subst c1
    have hin : ∀ t, InBox (nens axs) t → InBox (axs.map Axis.nnp) (modAll (axs.map Axis.nnp) (plus (firstNodes colloc axs x) t)) :=
      fun t ht => (wrapAll_modAll colloc hd (c3 t ht)).2
    obtain ⟨idx, k1, k2, k3, k4⟩ := entries (lgmap (world (appWorld Ls)) (L.dir.map gdir)) bs (offset (world (appWorld Ls)) r)
      (offset (world (appWorld Ls)) (r+1)) (indices (nens axs))
      (fun t => flat (L.dir.map Dir.nodeGwidth) (rel (L.dir.map Dir.nodeGstart) (plus (firstNodes colloc axs x) t)))
      (fun t => appToPetsc (world (appWorld Ls)) (flat (axs.map Axis.nnp) (modAll (axs.map Axis.nnp) (plus (firstNodes colloc axs x) t)))) (by
        intro t ht
        have ht' := c3 t ((mem_indices _ _).1 ht)
        have := lookup_ok S h ht'
        unfold lookup at this
        split_ifs at this with hn
        refine ⟨by omega, ?_⟩
        generalize (lgmap (world (appWorld Ls)) (L.dir.map gdir))[(flat (L.dir.map Dir.nodeGwidth) (rel (L.dir.map Dir.nodeGstart) (plus (firstNodes colloc axs x) t))).toNat]? = o at this
        cases o with
        | none => simp at this
        | some a => simpa using this) (nodup_indices _)
    have ownI : ∀ t, InBox (nens axs) t → _ := fun t ht => own r _ (rank_lt hg) (hin t ht)
    rw [os, ow] at ownI
    refine ⟨idx, ?_, ?_, ?_⟩
    · unfold ebeBlock
      rw [hax, h1]
      show (mapping cds).bind _ = _
      rw [h2]
      show ownedGlobal _ _ _ _ map _ = _
      unfold ownedGlobal
      rw [h3, List.map_map, List.map_map]
      erw [k1]
      show store _ idx = _
      unfold store
      rw [if_pos]
      rw [c2]
      have hl : ((indices (nens axs)).length : Int) = (nens axs).foldl (· * ·) 1 := by
        rw [PetIGA.Part.foldl_mul, one_mul, indices_box, length_box]
        · rw [List.map_map]; simp [Function.comp_def]
        · intro p hp
          rw [List.mem_map] at hp
          obtain ⟨n, hn, rfl⟩ := hp
          unfold nens at hn
          rw [List.mem_map] at hn
          obtain ⟨ax, ha, rfl⟩ := hn
          have := hpos ax ha
          show 0 ≤ ax.p + 1
          omega
      calc (idx.length : Int) ≤ ((bs * (indices (nens axs)).length : Nat) : Int) := by exact_mod_cast k2
        _ = _ := by push_cast; rw [hl]; ring
    · intro i
      rw [k3]
      constructor
      · rintro ⟨t, ht, c, hc, hr, rfl⟩
        have ht' := (mem_indices _ _).1 ht
        exact ⟨t, c, ht', (ownI t ht').2 hr, hc, rfl⟩
      · rintro ⟨t, c, ht, ho, hc, rfl⟩
        exact ⟨t, (mem_indices _ _).2 ht, c, hc, (ownI t ht).1 ho, rfl⟩
    · intro hn
      apply k4
      intro t ht t' ht' _ _ he
      rw [mem_indices] at ht ht'
      refine closure_inj (fun a ha => ⟨hn a ha, hpos a ha⟩) ?_ ht ht' (inj _ _ (hin t ht) (hin t' ht') he)
      unfold firstNodes
      rw [List.length_zipWith, inBlock_length hx, List.length_map, hd.length_eq, min_self]
  classical
  let block : List Int → List Int := fun x =>
    if hx : InBlock (L.dir.map Dir.elemStart) (L.dir.map Dir.elemWidth) x then (key x hx).choose else []
  have hblock : ∀ x hx, block x = (key x hx).choose := fun A hA => dif_pos hA
  refine ⟨block, ?_, ?_⟩
  · intro x hx
    rw [hblock x hx]
    exact (key x hx).choose_spec
  · intro v c hv hc
    obtain ⟨e, t, a1, a2, a3⟩ := covered_list hcov hv
    refine ⟨e, a1, ?_⟩
    rw [hblock e a1, ((key e a1).choose_spec).2.1]
    have hvb : InBox (axs.map Axis.nnp) v := by
      rw [← os, ← ow] at hv
      exact inBlock_inBox (D.part.inside r (rank_lt hg)) hv
    have hm : modAll (axs.map Axis.nnp) v = v := modAll_self hvb
    refine ⟨t, c, a2, ?_, hc, ?_⟩
    · rw [a3, hm]; exact hv
    · rw [a3, hm]

/-! ### Concrete cases -/

section
set_option synthInstance.maxSize 2000
set_option synthInstance.maxHeartbeats 200000

/-- The two processes of `exSetupB` (degree 2, four elements): the blocks of their elements.  The blocks of
the first process are restricted to its own nodes 0 and 1. -/
example : Setup exactGuess2 exactGuess3 false 2 [2] [exAxB] [(Ax.setUp exAxB).2] [exB0, exB1] ∧
    (∀ ax ∈ [(Ax.setUp exAxB).2], ax.p + 1 ≤ ax.nnp) ∧
    [0, 1].map (fun x => ebeBlock (world (appWorld [exB0, exB1])) 2 false [(Ax.setUp exAxB).2] exB0.dir 0 [x]) =
      [.ok [0, 1, 2, 3], .ok [2, 3]] ∧
    [2, 3].map (fun x => ebeBlock (world (appWorld [exB0, exB1])) 2 false [(Ax.setUp exAxB).2] exB1.dir 1 [x]) =
      [.ok [4, 5, 6, 7, 8, 9], .ok [6, 7, 8, 9, 10, 11]] := by
  obtain ⟨h0, h1⟩ := exB_dir
  have ew : world (appWorld [exB0, exB1]) = [[⟨6, 0, 2, 0, 4⟩], [⟨6, 2, 4, 2, 4⟩]] := by
    simp only [world, appWorld, List.map_cons, List.map_nil, h0, h1]; rfl
  refine ⟨exSetupB, ?_, ?_, ?_⟩
  · intro ax h
    simp only [List.mem_cons, List.not_mem_nil, or_false] at h
    subst h; decide +kernel
  · rw [ew, h0]; decide +kernel
  · rw [ew, h1]; decide +kernel

/-- A periodic axis with two elements of degree 2, hence two nodes. -/
def exAxT : Axis Rat := (Ax.step (Ax.step (Ax.step (Ax.create fun _ => 0) (.setPeriodic true)).2 (.setDegree 2)).2 (.initUniform (fun _ => 0) 2 0 1 1)).2

theorem exAxT_reached : ∀ ax ∈ [exAxT], Reached ax := by
  intro ax h
  simp only [List.mem_cons, List.not_mem_nil, or_false] at h
  subst h
  exact .step _ _ (.step _ _ (.step _ _ (.create _) (by decide +kernel)) (by decide +kernel)) (by decide +kernel)

def exT0 : Layout Rat := lay (stage1 exactGuess2 exactGuess3 false 1 0 [1] [exAxT])

theorem exT_dir : exT0.dir = [⟨2, 0, 2, 4, 0, 4, 0, 4, 0, 2, 0, 2, 0, 4⟩] := by
  decide +kernel

theorem exSetupT : Setup exactGuess2 exactGuess3 false 1 [1] [exAxT] [(Ax.setUp exAxT).2] [exT0] := by
  have hL0 : stage1 exactGuess2 exactGuess3 false 1 0 [1] [exAxT] = .ok exT0 := rfl
  refine ⟨exAxT_reached, by simp, rfl, by omega, ⟨rfl, ?_⟩, ?_⟩
  · intro r L h
    match r, h with
    | 0, h => simp only [List.getElem?_cons_zero, Option.some.injEq] at h; rw [← h]; exact hL0
    | (n+1), h => simp at h
  · intro ax h
    simp only [List.mem_cons, List.not_mem_nil, or_false] at h
    subst h
    exact ⟨fun _ => by decide +kernel, by simp⟩

/-- **C76 fails** without the condition on the number of nodes: on a periodic axis with two elements of degree 2 every
element has the same node twice, and so has its block. -/
theorem C76_repeated_refuted :
    Setup exactGuess2 exactGuess3 false 1 [1] [exAxT] [(Ax.setUp exAxT).2] [exT0] ∧
    ebeBlock (world (appWorld [exT0])) 1 false [(Ax.setUp exAxT).2] exT0.dir 0 [0] = .ok [0, 1, 0] ∧
    ¬ ([0, 1, 0] : List Int).Nodup := by
  have ew : world (appWorld [exT0]) = [[⟨2, 0, 2, 0, 4⟩]] := by
    simp only [world, appWorld, List.map_cons, List.map_nil, exT_dir]; rfl
  refine ⟨exSetupT, ?_, by decide⟩
  rw [ew, exT_dir]; decide +kernel

end

end PetIGA.Blk
