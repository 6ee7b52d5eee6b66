import Verif.Props.PCApplyEBE
/-! Property theorems about the block preconditioner with overlap (`PCBBB`) as an operator (C85). -/
set_option linter.unusedSectionVars false
namespace PetIGA.PCA
open PetIGA.Spec PetIGA.Part PetIGA.Lay PetIGA.Ax PetIGA.Grid PetIGA.Asm PetIGA.Blk
open scoped Classical
open Finset (range)

variable {V : Type} [Field V]
variable {K : Type} [Field K] [LinearOrder K] [IsStrictOrderedRing K]
variable {g2 : Guess2} {g3 : Guess3} {colloc : Bool} {size : Int} {procs : List Int} {axes axs : List (Axis K)}
  {Ls : List (Layout K)}

/-! ### The number of columns of a row -/

/-- The box of half width `2o` around a node. -/
def around (ovs z : List Int) : List (Int × Int) := List.zipWith (fun o i => (i - 2 * o, 4 * o + 1)) ovs z

theorem near_around {ovs A z y : List Int} (h : Near ovs A z) (h' : Near ovs A y) : y ∈ box (around ovs z) := by
  rw [mem_box]
  unfold around
  induction h generalizing y with
  | nil => cases h'; exact .nil
  | cons h1 h2 ih =>
    cases h' with
    | cons a1 a2 =>
      simp only [List.zipWith_cons_cons, List.map_cons]
      exact .cons (by omega) (ih a2)

theorem length_around {ovs z : List Int} (h : z.length = ovs.length) (ho : ∀ o ∈ ovs, 0 ≤ o) (bs : Nat) :
    ((box (around ovs z)).length : Int) * bs = dnnz bs ovs := by
  have hs : (around ovs z).map Prod.snd = ovs.map fun o => 4 * o + 1 := by
    unfold around
    clear ho
    induction ovs generalizing z with
    | nil => rfl
    | cons o os ih =>
      cases z with
      | nil => simp at h
      | cons i is =>
        rw [List.zipWith_cons_cons, List.map_cons, ih (by simpa using h), List.map_cons]
  have hd : ∀ (l : List Int) (n : Int), l.foldl (fun n o => n * (4 * o + 1)) n = n * Spec.prod (l.map fun o => 4 * o + 1) := by
    intro l
    induction l with
    | nil => intro n; simp [Spec.prod]
    | cons o os ih =>
      intro n
      rw [List.foldl_cons, ih, List.map_cons]
      show n * (4 * o + 1) * Spec.prod _ = n * ((4 * o + 1) * Spec.prod _)
      ring
  rw [length_box, hs]
  · unfold dnnz
    rw [hd, one_mul]
  · intro p hp
    have : p.2 ∈ (around ovs z).map Prod.snd := List.mem_map.2 ⟨p, hp, rfl⟩
    rw [hs, List.mem_map] at this
    obtain ⟨o, h1, h2⟩ := this
    have := ho o h1
    omega

/-! ### Periodic directions -/

/-- The node with multi-index `y`, periodic directions taken modulo the number of nodes. -/
def image (axs : List (Axis K)) (y : List Int) : List Int := List.zipWith (fun ax i => if ax.periodic then i % ax.nnp else i) axs y

/-- Node `x` is within the overlap of node `A`, going around in periodic directions. -/
def NearMod (axs : List (Axis K)) (ovs A x : List Int) : Prop := ∃ y, Near ovs A y ∧ x = image axs y

/-- A node is not within the overlap of another in two ways: periodic directions have more than twice as many nodes as the overlap. -/
def Fits (axs : List (Axis K)) (ovs : List Int) : Prop := List.Forall₂ (fun ax o => ax.periodic = true → 2 * o < ax.nnp) axs ovs

theorem image_nonperiodic {y : List Int} : ∀ {axs : List (Axis K)}, (∀ ax ∈ axs, ax.periodic = false) → y.length = axs.length → image axs y = y := by
  induction y with
  | nil => intro axs _ h; cases axs <;> simp_all [image]
  | cons i is ih =>
    intro axs hp h
    cases axs with
    | nil => simp at h
    | cons ax axs =>
      have := ih (axs := axs) (fun a ha => hp a (by simp [ha])) (by simpa using h)
      unfold image at this ⊢
      rw [List.zipWith_cons_cons, this, hp ax (by simp)]
      rfl

theorem fits_nonperiodic {axs : List (Axis K)} : ∀ {ovs : List Int}, (∀ ax ∈ axs, ax.periodic = false) → ovs.length = axs.length → Fits axs ovs := by
  induction axs with
  | nil => intro ovs _ h; cases ovs with
    | nil => exact .nil
    | cons => simp at h
  | cons ax axs ih =>
    intro ovs hp h
    cases ovs with
    | nil => simp at h
    | cons o os =>
      exact .cons (by rw [hp ax (by simp)]; simp) (ih (fun a ha => hp a (by simp [ha])) (by simpa using h))

theorem win_image {axs : List (Axis K)} {ds : List Dir} (h : List.Forall₂ (DirW colloc) axs ds) :
    ∀ {ovs y : List Int}, (∀ o ∈ ovs, 0 ≤ o) →
      InBlock ((bbbGrid (ds.map gdir) ovs).map GDir.gstart) ((bbbGrid (ds.map gdir) ovs).map GDir.gwidth) y →
      ovs.length = axs.length →
      InBlock (ds.map Dir.nodeLstart) (ds.map Dir.nodeLwidth) (wrapAll (axs.map Axis.nnp) y) → wrapAll (axs.map Axis.nnp) y = image axs y := by
  induction h with
  | nil => intro ovs y _ hy _ _; cases hy; rfl
  | @cons ax d axs ds h1 h2 ih =>
    intro ovs y ho hy hl hw
    match ovs, hl with
    | o :: os, hl =>
      simp only [bbbGrid, List.map_cons, List.zipWith_cons_cons] at hy
      cases hy with
      | @cons _ _ i _ _ is b1 b2 =>
        unfold wrapAll at hw ⊢
        unfold image
        simp only [List.map_cons, List.zipWith_cons_cons] at hw ⊢
        cases hw with
        | cons c1 c2 =>
          have hi := ih (fun a ha => ho a (by simp [ha])) b2 (by simpa using hl) c2
          unfold wrapAll image at hi
          rw [hi]
          congr 1
          cases hp : ax.periodic with
          | false => exact window_noWrap h1 hp (ho o (by simp)) b1.1 b1.2 c1.1
          | true =>
            have := window_wraps h1 b1.1
            have hN := h1.own
            rw [if_pos rfl]
            unfold wrap at this ⊢
            split_ifs at this ⊢ with g1 g2
            · rw [← Int.add_emod_left, Int.emod_eq_of_lt this.1 this.2]
            · rw [Int.tmod_eq_emod_of_nonneg (by omega)]
            · rw [Int.emod_eq_of_lt (by omega) (by omega)]

theorem image_inj {axs : List (Axis K)} {ovs : List Int} (hf : Fits axs ovs) : ∀ {A y y' : List Int}, Near ovs A y → Near ovs A y' →
    image axs y = image axs y' → y = y' := by
  induction hf with
  | nil =>
    intro A y y' h h' _
    cases h; cases h'; rfl
  | @cons ax o axs os h1 h2 ih =>
    intro A y y' h h' he
    cases h with
    | cons a1 a2 =>
      cases h' with
      | cons b1 b2 =>
        unfold image at he
        simp only [List.zipWith_cons_cons, List.cons.injEq] at he
        rw [ih a2 b2 he.2]
        congr 1
        have he := he.1
        cases hp : ax.periodic with
        | false => rw [hp] at he; simpa using he
        | true =>
          rw [hp, if_pos rfl, if_pos rfl] at he
          have hlt := h1 hp
          have hdvd := Int.dvd_of_emod_eq_zero (Int.emod_eq_emod_iff_emod_sub_eq_zero.1 he)
          have := Int.eq_zero_of_abs_lt_dvd hdvd (by rw [abs_lt]; omega)
          omega

theorem near_image {axs : List (Axis K)} {ovs : List Int} : ∀ {A y y' : List Int}, ovs.length = axs.length → Near ovs A y → Near ovs A y' →
    ∃ w ∈ box (around ovs (image axs y)), image axs w = image axs y' := by
  simp only [mem_box]
  unfold around
  induction axs generalizing ovs with
  | nil =>
    intro A y y' hl h h'
    cases ovs with
    | nil => cases h; cases h'; exact ⟨[], .nil, rfl⟩
    | cons => simp at hl
  | cons ax axs ih =>
    intro A y y' hl h h'
    cases h with
    | nil => simp at hl
    | @cons o a i os as is a1 a2 =>
      cases h' with
      | @cons _ _ j _ _ js b1 b2 =>
        obtain ⟨w, h1, h2⟩ := ih (by simpa using hl) a2 b2
        unfold image at h1 h2 ⊢
        simp only [List.zipWith_cons_cons, List.map_cons]
        cases hp : ax.periodic with
        | false =>
          refine ⟨j :: w, .cons (by simp only [Bool.false_eq_true, if_false]; omega) h1, ?_⟩
          rw [List.zipWith_cons_cons, h2, hp]
        | true =>
          refine ⟨(i % ax.nnp + (j - i)) :: w, .cons (by simp only [if_true]; omega) h1, ?_⟩
          rw [List.zipWith_cons_cons, h2, hp]
          congr 1
          simp only [if_true]
          rw [Int.emod_add_emod]
          congr 1; omega

/-- `idx` lists unknowns of owned nodes within the overlap of node `A`, going around in periodic directions; all those within the overlap without going
around if the window of the process reaches its owned nodes (with collocation: and there are no periodic directions). -/
def NodeUnknowns (colloc : Bool) (axs : List (Axis K)) (Ls : List (Layout K)) (bs : Nat) (ovs : List Int) (L : Layout K) (A : List Int) (idx : List Int) : Prop :=
  (∀ i ∈ idx, ∃ (x : List Int) (c : Nat), InBlock (L.dir.map Dir.nodeLstart) (L.dir.map Dir.nodeLwidth) x ∧
    NearMod axs ovs A x ∧ c < bs ∧ i = unknown Ls axs bs x c) ∧
  ((∀ ax ∈ axs, colloc = true → ax.periodic = false) → List.Forall₂ Reaches L.dir ovs → ∀ x c, InBlock (L.dir.map Dir.nodeLstart) (L.dir.map Dir.nodeLwidth) x → Near ovs A x → c < bs →
    unknown Ls axs bs x c ∈ idx)

/-- One block for every node of the mesh, on the process that owns the node. -/
def NodeBlocks (colloc : Bool) (axs : List (Axis K)) (Ls : List (Layout K)) (bs : Nat) (ovs : List Int) (blocks : List (List Int)) : Prop :=
  ∃ ns : List (Nat × List Int), ns.Nodup ∧
    (∀ r A, (r, A) ∈ ns ↔ ∃ L, Ls[r]? = some L ∧ InBlock (L.dir.map Dir.nodeLstart) (L.dir.map Dir.nodeLwidth) A) ∧
    List.Forall₂ (fun (n : Nat × List Int) idx => ∃ L, Ls[n.1]? = some L ∧ NodeUnknowns colloc axs Ls bs ovs L n.2 idx) ns blocks

/-- The block of a node, without repetitions if the periodic directions have enough nodes. -/
theorem bbb_block' (S : Setup g2 g3 colloc size procs axes axs Ls) {r : Nat} {L : Layout K} (h : Ls[r]? = some L)
    (bs : Nat) (req : List Int) (hq : req.length = axs.length) (hF : Fits axs (overlaps req axs)) (A : List Int) (hA : A.length = axs.length) :
    ∃ idx : List Int, bbbBlock (world (appWorld Ls)) bs (L.dir.map gdir) req (axs.map Axis.p) r A = .ok idx ∧
      (∀ i : Int, i ∈ idx ↔ ∃ (y : List Int) (c : Nat), Near (overlaps req axs) A y ∧
        InBlock ((bbbGrid (L.dir.map gdir) (overlaps req axs)).map GDir.gstart) ((bbbGrid (L.dir.map gdir) (overlaps req axs)).map GDir.gwidth) y ∧
        InBlock (L.dir.map Dir.nodeLstart) (L.dir.map Dir.nodeLwidth) (wrapAll (axs.map Axis.nnp) y) ∧
        c < bs ∧ i = bs * appToPetsc (world (appWorld Ls)) (flat (axs.map Axis.nnp) (wrapAll (axs.map Axis.nnp) y)) + c) ∧
      idx.Nodup := by
  obtain ⟨hd, hg, os, ow, hs, hl, o1, o2⟩ := bbb_setup S h req hq
  obtain ⟨D, hNs⟩ := S.grid
  have := C60_block D hNs bs r (rank_lt hg) (bbbGrid (L.dir.map gdir) (overlaps req axs)) hs
    (fun y hy => win_wraps hd hy o1) (overlaps req axs) A o2 (by rw [hl, o1]) (by rw [hA, o1])
  rw [os, ow] at this
  obtain ⟨idx, h1, h2, h3⟩ := this
  refine ⟨idx, h1, h2, h3 ?_⟩
  intro y y' n1 n2 w1 w2 b1 he
  have e1 := win_image hd o2 w1 o1 b1
  have e2 := win_image hd o2 w2 o1 (he ▸ b1)
  exact image_inj hF n1 n2 (by rw [← e1, ← e2, he])

theorem bbb_core (S : Setup g2 g3 colloc size procs axes axs Ls) (bs : Nat) (req : List Int) (hq : req.length = axs.length)
    (hF : Fits axs (overlaps req axs)) (A : Int → Int → V) :
    ∃ blocks, NodeBlocks colloc axs Ls bs (overlaps req axs) blocks ∧
      (∀ idx ∈ blocks, ∀ i ∈ idx, 0 ≤ i ∧ i < total axs bs) ∧
      (∀ idx ∈ blocks, idx.Nodup) ∧
      ((∀ ax ∈ axs, colloc = true → ax.periodic = false) → (∀ (r : Nat) L, Ls[r]? = some L → List.Forall₂ Reaches L.dir (overlaps req axs)) →
        ∀ i : Int, 0 ≤ i → i < total axs bs → ∃ idx ∈ blocks, i ∈ idx) ∧
      ((∀ ax ∈ axs, ax.periodic = false) → ∀ (r : Nat) (L : Layout K) (k : Nat) (d : Dir) (o : Int), Ls[r]? = some L → L.dir[k]? = some d → (overlaps req axs)[k]? = some o → ¬ Reaches d o →
        ∀ c, c < bs → ∀ idx ∈ blocks, unknown Ls axs bs (lastNode L) c ∉ idx) ∧
      ((∀ idx ∈ blocks, IsUnit (sub A idx).det) → ∃ logs, Blocks (total axs bs) A blocks logs ∧ bbb bs Ls req A = .ok (assembled logs.flatten)) := by
  have hrank : ∀ ρ ∈ Ls.zipIdx, Ls[ρ.2]? = some ρ.1 := fun ρ h => by rw [List.mem_zipIdx_iff_getElem?] at h; exact h
  obtain ⟨D, hNs⟩ := S.grid
  obtain ⟨-, inj, -⟩ := C26_global_numbering _ _ D hNs
  have hbl : ∀ (r : Nat) (L : Layout K), Ls[r]? = some L → ∀ v, InBlock (L.dir.map Dir.nodeLstart) (L.dir.map Dir.nodeLwidth) v → InBox (axs.map Axis.nnp) v := by
    intro r L hL v hv
    obtain ⟨-, -, -, hg⟩ := S.get hL
    have hbl := own_blocks D hg
    rw [List.map_map, List.map_map] at hbl
    exact inBlock_inBox hbl hv
  have hlen : ∀ (r : Nat) (L : Layout K), Ls[r]? = some L → ∀ v, InBlock (L.dir.map Dir.nodeLstart) (L.dir.map Dir.nodeLwidth) v → v.length = axs.length := by
    intro r L hL v hv
    have := PetIGA.Grid.inBox_length (hbl r L hL v hv)
    rw [List.length_map] at this
    exact this
  have hblk := fun (r : Nat) (L : Layout K) (h : Ls[r]? = some L) (v : List Int) (hv : InBlock (L.dir.map Dir.nodeLstart) (L.dir.map Dir.nodeLwidth) v) =>
    bbb_block' S h bs req hq hF v (hlen r L h v hv)
  let blk : Layout K × Nat → List Int → List Int := fun ρ v =>
    if h : Ls[ρ.2]? = some ρ.1 ∧ InBlock (ρ.1.dir.map Dir.nodeLstart) (ρ.1.dir.map Dir.nodeLwidth) v then (hblk ρ.2 ρ.1 h.1 v h.2).choose else []
  let xs : Layout K × Nat → List (List Int) := fun ρ => ownedNodes ρ.1
  have hown : ∀ ρ : Layout K × Nat, ∀ v, v ∈ xs ρ ↔ InBlock (ρ.1.dir.map Dir.nodeLstart) (ρ.1.dir.map Dir.nodeLwidth) v := by
    intro ρ v
    show v ∈ ownedNodes ρ.1 ↔ _
    unfold ownedNodes
    rw [mem_box, List.map_map, List.map_map]; rfl
  have hprop : ∀ ρ ∈ Ls.zipIdx, ∀ v ∈ xs ρ,
      bbbBlock (world (appWorld Ls)) bs (ρ.1.dir.map gdir) req (axs.map Axis.p) ρ.2 v = .ok (blk ρ v) ∧
      NodeUnknowns colloc axs Ls bs (overlaps req axs) ρ.1 v (blk ρ v) ∧ (blk ρ v).Nodup ∧
      ((∀ ax ∈ axs, ax.periodic = false) → ∀ (k : Nat) (d : Dir) (o : Int), ρ.1.dir[k]? = some d → (overlaps req axs)[k]? = some o → ¬ Reaches d o →
        ∀ c, c < bs → unknown Ls axs bs (lastNode ρ.1) c ∉ blk ρ v) := by
    intro ρ hρ v hv
    have hL := hrank ρ hρ
    have hv' := (hown ρ v).1 hv
    have hb : blk ρ v = (hblk ρ.2 ρ.1 hL v hv').choose := dif_pos ⟨hL, hv'⟩
    rw [hb]
    obtain ⟨h1, h2, h3⟩ := (hblk ρ.2 ρ.1 hL v hv').choose_spec
    obtain ⟨hD, hg, -, -, -, -, o1, o2⟩ := bbb_setup S hL req hq
    refine ⟨h1, ⟨?_, ?_⟩, h3, ?_⟩
    · intro i hi
      obtain ⟨y, c, n1, n2, n3, n4, n5⟩ := (h2 i).1 hi
      exact ⟨_, c, n3, ⟨y, n1, win_image hD o2 n2 o1 n3⟩, n4, n5⟩
    · intro hcol hR x c hx hn hc
      rw [h2]
      refine ⟨x, c, hn, win_covers hD hcol o2 hR hx, ?_, hc, ?_⟩
      · rw [wrapAll_own hD hx]; exact hx
      · rw [wrapAll_own hD hx]; rfl
    · intro hper k d o hd ho hR c hc hmem
      have hlast := lastNode_own hD
      obtain ⟨y, c', n1, n2, n3, n4, n5⟩ := (h2 _).1 hmem
      have e := win_noWrap hD hper o2 n2 o1 n3
      rw [e] at n3 n5
      have := (block_inj (bs := bs) hc n4 (by unfold unknown at n5; exact n5)).1
      have e2 := inj _ _ (hbl ρ.2 ρ.1 hL _ hlast) (hbl ρ.2 ρ.1 hL _ n3) this
      obtain ⟨w, hw, hlt⟩ := win_misses hD k d o n2 hd ho hR
      rw [← e2, List.getElem?_map, hd] at hw
      simp only [Option.map_some, Option.some.injEq] at hw
      omega
  have hr : ∀ ρ ∈ Ls.zipIdx, ∀ v ∈ xs ρ, ∀ i ∈ blk ρ v,
      (offset (world (appWorld Ls)) ρ.2 * bs ≤ i ∧ i < offset (world (appWorld Ls)) (ρ.2+1) * bs) ∧ 0 ≤ i ∧ i < total axs bs := by
    intro ρ hρ v hv i hi
    obtain ⟨x, c, hx, -, hc, rfl⟩ := (hprop ρ hρ v hv).2.1.1 i hi
    exact unknown_range S (hrank ρ hρ) hx hc
  have hmb : ∀ idx, idx ∈ (Ls.zipIdx.flatMap fun ρ => (xs ρ).map (blk ρ)) → ∃ ρ ∈ Ls.zipIdx, ∃ x ∈ xs ρ, idx = blk ρ x := by
    intro idx hi
    obtain ⟨ρ, hρ, hy⟩ := List.mem_flatMap.1 hi
    obtain ⟨x, hx', rfl⟩ := List.mem_map.1 hy
    exact ⟨ρ, hρ, x, hx', rfl⟩
  have hbm : ∀ ρ ∈ Ls.zipIdx, ∀ x ∈ xs ρ, blk ρ x ∈ (Ls.zipIdx.flatMap fun ρ => (xs ρ).map (blk ρ)) := fun ρ hρ x hx' =>
    List.mem_flatMap.2 ⟨ρ, hρ, List.mem_map.2 ⟨x, hx', rfl⟩⟩
  let f : Layout K × Nat → List Int → Res (List ((Int × Int) × V)) := fun ρ v =>
    (bbbBlock (world (appWorld Ls)) bs (ρ.1.dir.map gdir) req (ρ.1.axes.map Axis.p) ρ.2 v).bind
      (block smallInv A (offset (world (appWorld Ls)) ρ.2 * bs) (offset (world (appWorld Ls)) (ρ.2+1) * bs))
  have hf : ∀ ρ ∈ Ls.zipIdx, ∀ v ∈ xs ρ, f ρ v = block smallInv A (offset (world (appWorld Ls)) ρ.2 * bs) (offset (world (appWorld Ls)) (ρ.2+1) * bs) (blk ρ v) := by
    intro ρ hρ v hv
    show (bbbBlock _ _ _ _ _ _ _).bind _ = _
    rw [(S.get (hrank ρ hρ)).2.1, (hprop ρ hρ v hv).1]
    rfl
  have hbox : ∀ ρ : Layout K × Nat, box (lbox (ρ.1.dir.map gdir)) = xs ρ := by
    intro ρ
    show box (lbox (ρ.1.dir.map gdir)) = ownedNodes ρ.1
    unfold lbox ownedNodes
    rw [List.map_map]; rfl
  -- the number of columns per row
  have hcount : ∀ ρ ∈ Ls.zipIdx, ∀ logs : List Int → List ((Int × Int) × V), (∀ v ∈ xs ρ, ∀ e ∈ logs v, e.1.1 ∈ blk ρ v ∧ e.1.2 ∈ blk ρ v) →
      (((xs ρ).map logs).flatten.all fun e => decide (((colsOf ((xs ρ).map logs).flatten e.1.1).length : Int) ≤
        dnnz bs (List.zipWith overlapOf req (ρ.1.axes.map Axis.p)))) = true := by
    intro ρ hρ logs hl
    have hL := hrank ρ hρ
    obtain ⟨-, -, -, -, -, -, o1, o2⟩ := bbb_setup S hL req hq
    rw [(S.get hL).2.1]
    rw [List.all_eq_true]
    intro e he
    apply decide_eq_true
    have hent : ∀ e' ∈ ((xs ρ).map logs).flatten, ∃ v ∈ xs ρ, e'.1.1 ∈ blk ρ v ∧ e'.1.2 ∈ blk ρ v := by
      intro e' he'
      obtain ⟨l, hl', hm⟩ := List.mem_flatten.1 he'
      obtain ⟨v, hv, rfl⟩ := List.mem_map.1 hl'
      exact ⟨v, hv, hl v hv e' hm⟩
    obtain ⟨v, hv, h1, -⟩ := hent e he
    obtain ⟨z, c, hz, hzn, hc, hze⟩ := (hprop ρ hρ v hv).2.1.1 _ h1
    have hzl : z.length = (overlaps req axs).length := by rw [o1]; exact hlen ρ.2 ρ.1 hL z hz
    have hsub : colsOf ((xs ρ).map logs).flatten e.1.1 ⊆ (box (around (overlaps req axs) z)).flatMap fun y => (List.range bs).map fun (c : Nat) => unknown Ls axs bs (image axs y) c := by
      intro j hj
      unfold colsOf at hj
      rw [List.mem_dedup, List.mem_map] at hj
      obtain ⟨e', he', rfl⟩ := hj
      rw [List.mem_filter, decide_eq_true_eq] at he'
      obtain ⟨w, hw, w1, w2⟩ := hent e' he'.1
      obtain ⟨z', c', hz', hzn', hc', hze'⟩ := (hprop ρ hρ w hw).2.1.1 _ w1
      obtain ⟨y, c2, hy, hyn, hc2, hye⟩ := (hprop ρ hρ w hw).2.1.1 _ w2
      have hzz : z' = z := by
        have h5 : unknown Ls axs bs z' c' = unknown Ls axs bs z c := by rw [← hze', ← hze, he'.2]
        have := (block_inj (bs := bs) hc' hc (by unfold unknown at h5; exact h5)).1
        exact inj _ _ (hbl ρ.2 ρ.1 hL _ hz') (hbl ρ.2 ρ.1 hL _ hz) this
      obtain ⟨y1, hy1, e1⟩ := hzn'
      obtain ⟨y2, hy2, e2⟩ := hyn
      obtain ⟨w', m1, m2⟩ := near_image o1 hy1 hy2
      rw [← e1, hzz] at m1
      rw [List.mem_flatMap]
      exact ⟨w', m1, List.mem_map.2 ⟨c2, List.mem_range.2 hc2, by rw [m2, ← e2]; exact hye.symm⟩⟩
    have hnd : (colsOf ((xs ρ).map logs).flatten e.1.1).Nodup := List.nodup_dedup _
    have hle := (List.subperm_of_subset hnd hsub).length_le
    have hlen2 : ((box (around (overlaps req axs) z)).flatMap fun y => (List.range bs).map fun (c : Nat) => unknown Ls axs bs (image axs y) c).length =
        (box (around (overlaps req axs) z)).length * bs := by
      rw [List.length_flatMap]
      simp
    rw [hlen2] at hle
    rw [show List.zipWith overlapOf req (axs.map Axis.p) = overlaps req axs from rfl, ← length_around hzl o2 bs]
    exact_mod_cast hle
  refine ⟨Ls.zipIdx.flatMap fun ρ => (xs ρ).map (blk ρ), ⟨Ls.zipIdx.flatMap fun ρ => (xs ρ).map fun v => (ρ.2, v), ?_, ?_, ?_⟩, ?_, ?_, ?_, ?_, ?_⟩
  · have hnd : (Ls.zipIdx.map Prod.snd).Nodup := by
      rw [List.zipIdx_map_snd]
      exact List.nodup_range'
    rw [List.nodup_flatMap]
    refine ⟨?_, ?_⟩
    · intro ρ _
      exact (nodup_box _).map fun a b h => (Prod.mk.inj h).2
    · rw [List.Nodup, List.pairwise_map] at hnd
      refine hnd.imp fun {ρ ρ'} hne => ?_
      intro a ha hb
      obtain ⟨v, -, rfl⟩ := List.mem_map.1 ha
      obtain ⟨w, -, hw⟩ := List.mem_map.1 hb
      exact hne (Prod.mk.inj hw).1.symm
  · intro r v
    rw [List.mem_flatMap]
    constructor
    · rintro ⟨ρ, hρ, hm⟩
      obtain ⟨w, hw, he⟩ := List.mem_map.1 hm
      obtain ⟨h1, h2⟩ := Prod.mk.inj he
      subst h1 h2
      exact ⟨ρ.1, hrank ρ hρ, (hown ρ w).1 hw⟩
    · rintro ⟨L, hL, hv⟩
      exact ⟨(L, r), by rw [List.mem_zipIdx_iff_getElem?]; exact hL, List.mem_map.2 ⟨v, (hown (L, r) v).2 hv, rfl⟩⟩
  · have key : ∀ l : List (Layout K × Nat), (∀ ρ ∈ l, ρ ∈ Ls.zipIdx) → List.Forall₂ (fun (n : Nat × List Int) idx => ∃ L, Ls[n.1]? = some L ∧
        NodeUnknowns colloc axs Ls bs (overlaps req axs) L n.2 idx)
        (l.flatMap fun ρ => (xs ρ).map fun v => (ρ.2, v)) (l.flatMap fun ρ => (xs ρ).map (blk ρ)) := by
      intro l hl
      induction l with
      | nil => exact .nil
      | cons ρ l ih =>
        rw [List.flatMap_cons, List.flatMap_cons]
        refine List.rel_append ?_ (ih fun a ha => hl a (by simp [ha]))
        rw [List.forall₂_map_left_iff, List.forall₂_map_right_iff, List.forall₂_same]
        intro v hv
        have hρ := hl ρ (by simp)
        exact ⟨ρ.1, hrank ρ hρ, (hprop ρ hρ v hv).2.1⟩
    exact key _ fun _ h => h
  · intro idx hi i hii
    obtain ⟨ρ, hρ, x, hx', rfl⟩ := hmb idx hi
    exact (hr ρ hρ x hx' i hii).2
  · intro idx hi
    obtain ⟨ρ, hρ, x, hx', rfl⟩ := hmb idx hi
    exact (hprop ρ hρ x hx').2.2.1
  · intro hcol hR i h0 h1
    obtain ⟨r, L, v, c, hL, hv, hc, rfl⟩ := unknown_surj S h0 h1
    have hρ : (L, r) ∈ Ls.zipIdx := by rw [List.mem_zipIdx_iff_getElem?]; exact hL
    have hvx := (hown (L, r) v).2 hv
    obtain ⟨-, -, -, -, -, -, o1, o2⟩ := bbb_setup S hL req hq
    exact ⟨_, hbm _ hρ v hvx, (hprop _ hρ v hvx).2.1.2 hcol (hR r L hL) v c hv (near_self o2 (by rw [o1]; exact hlen r L hL v hv)) hc⟩
  · intro hper r L k d o hL hd ho hR c hc idx hi hmem
    obtain ⟨ρ, hρ, v, hv, rfl⟩ := hmb idx hi
    have hρ' : (L, r) ∈ Ls.zipIdx := by rw [List.mem_zipIdx_iff_getElem?]; exact hL
    obtain ⟨hD, -⟩ := bbb_setup S hL req hq
    have hlast := lastNode_own hD
    obtain ⟨x, c', hx, -, hc', he⟩ := (hprop ρ hρ v hv).2.1.1 _ hmem
    have e1 := (block_inj (bs := bs) hc hc' (by unfold unknown at he; exact he)).1
    have e2 := inj _ _ (hbl r L hL _ hlast) (hbl ρ.2 ρ.1 (hrank ρ hρ) _ hx) e1
    have hsame : r = ρ.2 := by
      obtain ⟨-, -, -, hg⟩ := S.get hL
      obtain ⟨-, -, -, hg'⟩ := S.get (hrank ρ hρ)
      refine owner_unique D hg hg' (x := lastNode L) ?_ ?_
      · rw [List.map_map, List.map_map]; exact hlast
      · rw [List.map_map, List.map_map]
        show InBlock _ _ (lastNode L)
        unfold lastNode
        rw [e2]; exact hx
    have hLL : L = ρ.1 := by
      have := hrank ρ hρ
      rw [← hsame, hL] at this
      exact Option.some.inj this
    subst hLL
    exact (hprop ρ hρ v hv).2.2.2 hper k d o hd ho hR c hc hmem
  · intro hu
    obtain ⟨logs, h1, h2, h3⟩ := run (N := total axs bs) (A := A) Ls.zipIdx xs blk f (by
      intro ρ hρ x hx'
      refine ⟨hu _ (hbm ρ hρ x hx'), fun i hi => (hr ρ hρ x hx' i hi).2, ?_⟩
      rw [hf ρ hρ x hx']
      exact block_small A (fun i hi => (hr ρ hρ x hx' i hi).1) (hu _ (hbm ρ hρ x hx')))
    refine ⟨_, h2, ?_⟩
    unfold bbb
    rw [sequence_ok _ (fun ρ => ((xs ρ).map (logs ρ)).flatten) Ls.zipIdx]
    · show Res.ok (assembled _) = _
      rw [h3]
    · intro ρ hρ
      unfold bbbSetUp
      rw [hbox ρ]
      show (Blk.sequence ((xs ρ).map (f ρ))).bind _ = _
      rw [sequence_ok (f ρ) (logs ρ) (xs ρ) fun x hx' => (h1 ρ hρ x hx').1]
      show (if _ then _ else _) = _
      rw [if_pos (hcount ρ hρ (logs ρ) fun x hx' => (h1 ρ hρ x hx').2)]

/-- **C85.**  After any successful set-up, for every matrix and every requested overlap, with or without periodic directions as long as these have more
than twice as many nodes as the overlap: the preconditioner has one block per node, with unknowns of owned nodes within the overlap.  If the local problem of every
block is uniquely solvable, setting up succeeds (also no row gets more entries than preallocated) and applying the
preconditioner, or its transpose, gives the additive Schwarz correction of these blocks.
Partial: blocks are cut off on processes whose window does not reach their owned nodes (`C85_refuted`) and at the ends of periodic directions
(`C85_seam_refuted`); in periodic directions with few nodes setting up fails (`C85_repeated_refuted`). -/
theorem C85_bbb_partial (S : Setup g2 g3 colloc size procs axes axs Ls) (bs : Nat) (req : List Int) (hq : req.length = axs.length)
    (hF : Fits axs (overlaps req axs)) (A : Int → Int → V) :
    ∃ blocks, NodeBlocks colloc axs Ls bs (overlaps req axs) blocks ∧ (∀ idx ∈ blocks, idx.Nodup) ∧
      ((∀ idx ∈ blocks, Regular (total axs bs) A idx) → ∃ B, bbb bs Ls req A = .ok B ∧
        ∀ x, AdditiveSchwarz (total axs bs) A blocks x (apply (total axs bs) B x) ∧
          AdditiveSchwarz (total axs bs) (fun i j => A j i) blocks x (applyTranspose (total axs bs) B x)) := by
  obtain ⟨blocks, h1, h2, h3, h4, h5, h6⟩ := bbb_core S bs req hq hF A
  refine ⟨blocks, h1, h3, fun h => ?_⟩
  obtain ⟨logs, hB, he⟩ := h6 fun idx hi => (unit_iff (h2 idx hi)).2 ⟨h3 idx hi, h idx hi⟩
  exact ⟨_, he, fun x => ⟨schwarz hB x, schwarz_transpose hB x⟩⟩

/-- **C85**, symmetric positive definite matrices: setting up succeeds, and if the windows of all processes reach their
owned nodes the preconditioner is symmetric positive definite. -/
theorem C85_spd_partial [LinearOrder V] [IsStrictOrderedRing V] (S : Setup g2 g3 colloc size procs axes axs Ls) (bs : Nat) (req : List Int) (hq : req.length = axs.length)
    (hF : Fits axs (overlaps req axs)) (A : Int → Int → V) (hA : PosDef (total axs bs) A)
    (hcol : ∀ ax ∈ axs, colloc = true → ax.periodic = false) (hR : ∀ (r : Nat) L, Ls[r]? = some L → List.Forall₂ Reaches L.dir (overlaps req axs)) :
    ∃ blocks B, NodeBlocks colloc axs Ls bs (overlaps req axs) blocks ∧ bbb bs Ls req A = .ok B ∧
      (∀ x, AdditiveSchwarz (total axs bs) A blocks x (apply (total axs bs) B x)) ∧
      PosDef (total axs bs) fun i j => B (i, j) := by
  obtain ⟨blocks, h1, h2, h3, h4, h5, h6⟩ := bbb_core S bs req hq hF A
  obtain ⟨logs, hB, he⟩ := h6 fun idx hi => sub_unit hA (h3 idx hi) (h2 idx hi)
  exact ⟨blocks, _, h1, he, fun x => schwarz hB x, posDef hB hA (h4 hcol hR)⟩

/-- **C85 fails** otherwise: if the window of some process does not reach its owned nodes (Galerkin: the last process of
every direction that is distributed, with an overlap of at least one, `C60_last_process`), then for every positive
definite matrix setting up succeeds but applying the preconditioner gives zero at the last node of the process whatever
the argument, and so does the transpose: the preconditioner is singular. -/
theorem C85_refuted [LinearOrder V] [IsStrictOrderedRing V] (S : Setup g2 g3 colloc size procs axes axs Ls) (bs : Nat) (hb : 1 ≤ bs) (req : List Int) (hq : req.length = axs.length)
    (hper : ∀ ax ∈ axs, ax.periodic = false) (A : Int → Int → V) (hA : PosDef (total axs bs) A)
    (r : Nat) (L : Layout K) (hL : Ls[r]? = some L) (k : Nat) (d : Dir) (o : Int) (hd : L.dir[k]? = some d) (ho : (overlaps req axs)[k]? = some o) (hR : ¬ Reaches d o) :
    ∃ B, bbb bs Ls req A = .ok B ∧
      (∀ x c, c < bs → apply (total axs bs) B x (unknown Ls axs bs (lastNode L) c) = 0 ∧
        applyTranspose (total axs bs) B x (unknown Ls axs bs (lastNode L) c) = 0) ∧
      ¬ PosDef (total axs bs) fun i j => B (i, j) := by
  obtain ⟨blocks, h1, h2, h3, h4, h5, h6⟩ := bbb_core S bs req hq (fits_nonperiodic hper (bbb_setup S hL req hq).2.2.2.2.2.2.1) A
  obtain ⟨logs, hB, he⟩ := h6 fun idx hi => sub_unit hA (h3 idx hi) (h2 idx hi)
  have hout := h5 hper r L k d o hL hd ho hR
  obtain ⟨hD, -⟩ := bbb_setup S hL req hq
  have hrange := fun c (hc : c < bs) => (unknown_range S hL (lastNode_own hD) hc).2
  have hzero : ∀ x c, c < bs → form logs.flatten (unit (unknown Ls axs bs (lastNode L) c)) x = 0 ∧ form logs.flatten x (unit (unknown Ls axs bs (lastNode L) c)) = 0 := by
    intro x c hc
    rw [form_flatten, form_flatten]
    have hI := hB.inv
    have ho' := hout c hc
    clear hB he h1 h2 h3 h4 h5 h6 hout
    induction hI with
    | nil => exact ⟨rfl, rfl⟩
    | @cons idx log is ls a1 a2 ih =>
      obtain ⟨i1, i2⟩ := ih fun idx hi => ho' idx (by simp [hi])
      have hn := ho' idx (by simp)
      rw [List.map_cons, List.sum_cons, i1, List.map_cons, List.sum_cons, i2, a1, a1]
      constructor
      · rw [add_zero]
        refine Finset.sum_eq_zero fun a _ => Finset.sum_eq_zero fun b _ => ?_
        have : idx[a] ≠ unknown Ls axs bs (lastNode L) c := fun h => hn (h ▸ List.getElem_mem _)
        simp only [unit]
        rw [if_neg this, zero_mul, zero_mul]
      · rw [add_zero]
        refine Finset.sum_eq_zero fun a _ => Finset.sum_eq_zero fun b _ => ?_
        have : idx[b] ≠ unknown Ls axs bs (lastNode L) c := fun h => hn (h ▸ List.getElem_mem _)
        simp only [unit]
        rw [if_neg this, mul_zero]
  refine ⟨_, he, ?_, ?_⟩
  · intro x c hc
    rw [apply_form hB.inRange, applyTranspose_form hB.inRange]
    exact hzero x c hc
  · intro hP
    have := hP.2 (unit (unknown Ls axs bs (lastNode L) 0)) ⟨_, (hrange 0 (by omega)).1, (hrange 0 (by omega)).2, by simp [unit, lastNode]⟩
    rw [quadratic_form hB.inRange, (hzero _ 0 (by omega)).1] at this
    exact lt_irrefl _ this

theorem small_singular (A : Int → Int → V) {lo hi : Int} {idx : List Int} (h1 : 1 < idx.length) (hd : ¬ IsUnit (sub A idx).det) :
    ∀ log, block smallInv A lo hi idx ≠ .ok log := by
  intro log hl
  unfold block at hl
  by_cases h : ∀ i ∈ idx, lo ≤ i ∧ i < hi
  · rw [getBlock_ok A h] at hl
    change (smallInv idx.length _).bind _ = _ at hl
    unfold smallInv lapackInv at hl
    rw [if_pos h1, if_neg (by omega), colMajor_get, Matrix.det_transpose, if_neg hd] at hl
    cases hl
  · unfold getBlock at hl
    rw [if_neg (by simpa using h)] at hl
    cases hl

/-- A process on which a block repeats an index does not finish. -/
theorem bbb_fails (S : Setup g2 g3 colloc size procs axes axs Ls) (bs : Nat) (req : List Int) (hq : req.length = axs.length) (A : Int → Int → V)
    {r : Nat} {L : Layout K} (h : Ls[r]? = some L) {x : List Int} (hx : InBlock (L.dir.map Dir.nodeLstart) (L.dir.map Dir.nodeLwidth) x)
    {idx : List Int} (hb : bbbBlock (world (appWorld Ls)) bs (L.dir.map gdir) req (axs.map Axis.p) r x = .ok idx) (hn : ¬ idx.Nodup) :
    ∀ B, bbb bs Ls req A ≠ .ok B := by
  intro B hB
  unfold bbb at hB
  have hρ : (L, r) ∈ Ls.zipIdx := by rw [List.mem_zipIdx_iff_getElem?]; exact h
  cases hs : Blk.sequence (Ls.zipIdx.map fun Lr => bbbSetUp (world (appWorld Ls)) bs (Lr.1.dir.map gdir) req (Lr.1.axes.map Axis.p) Lr.2 A) with
  | err e => rw [hs] at hB; simp [Res.bind] at hB
  | ub => rw [hs] at hB; simp [Res.bind] at hB
  | ok ls =>
    obtain ⟨log, -, hlog⟩ := sequence_inv _ _ _ hs _ hρ
    unfold bbbSetUp at hlog
    obtain ⟨ls', h1, -⟩ := Res.bind_eq_ok.1 hlog
    obtain ⟨log', -, h2⟩ := sequence_inv _ _ _ h1 x (by
      unfold lbox
      rw [mem_box, List.map_map, List.map_map, List.map_map, List.map_map]; exact hx)
    rw [(S.get h).2.1, hb] at h2
    obtain ⟨D, hNs⟩ := S.grid
    obtain ⟨hd, -⟩ := bbb_setup S h req hq
    obtain ⟨idx', hb', hi, -⟩ := bbb_block S h bs req hq x (by rw [inBlock_length hx, List.length_map, hd.length_eq])
    rw [hb] at hb'
    obtain rfl := Res.ok.inj hb'
    have hr : ∀ i ∈ idx, 0 ≤ i ∧ i < total axs bs := by
      intro i h'
      obtain ⟨y, c, -, -, n3, n4, rfl⟩ := (hi i).1 h'
      exact (unknown_range S h n3 n4).2
    change block smallInv A _ _ idx = _ at h2
    have hdet : ¬ IsUnit (sub A idx).det := fun hu => hn ((unit_iff hr).1 hu).1
    have h1m : 1 < idx.length := by
      match idx, hn with
      | [], hn => simp at hn
      | [a], hn => simp at hn
      | _ :: _ :: _, _ => simp
    have := small_singular A (lo := offset (world (appWorld Ls)) r * bs) (hi := offset (world (appWorld Ls)) (r+1) * bs) h1m hdet
    exact this _ h2

/-! ### Concrete cases -/

section
set_option synthInstance.maxSize 2000
set_option synthInstance.maxHeartbeats 200000

/-- The two processes of `exSetupB` with the default overlap: the preconditioner of the identity is singular. -/
example : ∃ B, bbb 1 [exB0, exB1] [-1] (fun i j => if i = j then (1:ℚ) else 0) = .ok B ∧
    (∀ x, apply 6 B x 5 = 0) ∧ ¬ PosDef 6 fun i j => B (i, j) := by
  obtain ⟨h0, h1⟩ := exB_dir
  have eo : overlaps [-1] [(Ax.setUp exAxB).2] = [1] := by decide +kernel
  have ew : world (appWorld [exB0, exB1]) = [[⟨6, 0, 2, 0, 4⟩], [⟨6, 2, 4, 2, 4⟩]] := by
    simp only [world, appWorld, List.map_cons, List.map_nil, h0, h1]; rfl
  have ht : total [(Ax.setUp exAxB).2] 1 = 6 := by decide +kernel
  have hl : lastNode exB1 = [5] := by unfold lastNode; rw [h1]; rfl
  have hu : unknown [exB0, exB1] [(Ax.setUp exAxB).2] 1 [5] 0 = 5 := by
    unfold unknown; rw [ew]; decide +kernel
  obtain ⟨B, b1, b2, b3⟩ := C85_refuted exSetupB 1 (le_refl _) [-1] rfl (by
    intro ax h
    simp only [List.mem_cons, List.not_mem_nil, or_false] at h
    subst h; decide +kernel) (fun i j => if i = j then (1:ℚ) else 0) (posDef_one _) 1 exB1 rfl 0 ⟨4, 2, 2, 6, 2, 4, 2, 4, 0, 6, 2, 4, 2, 4⟩ 1
      (by rw [h1]; rfl) (by rw [eo]; rfl) (by unfold Reaches; dsimp only; omega)
  rw [ht] at b2 b3
  rw [hl] at b2
  refine ⟨B, b1, fun x => ?_, b3⟩
  have := (b2 x 0 (by omega)).1
  rwa [hu] at this

/-- On one process, degree 2, six nodes: the hypotheses of `C85_spd_partial` (overlap 1) hold. -/
example : ∃ B, bbb 2 [exC0] [-1] (fun i j => if i = j then (1:ℚ) else 0) = .ok B ∧
    PosDef (total [(Ax.setUp exAxB).2] 2) fun i j => B (i, j) := by
  have eo : overlaps [-1] [(Ax.setUp exAxB).2] = [1] := by decide +kernel
  have hp : ∀ ax ∈ [(Ax.setUp exAxB).2], ax.periodic = false := by
    intro ax h
    simp only [List.mem_cons, List.not_mem_nil, or_false] at h
    subst h; decide +kernel
  obtain ⟨blocks, B, -, b1, -, b2⟩ := C85_spd_partial exSetupC1 2 [-1] rfl (fits_nonperiodic hp rfl)
    (fun i j => if i = j then (1:ℚ) else 0) (posDef_one _) (fun ax h _ => hp ax h) (by
      intro r L h
      match r, h with
      | 0, h =>
        simp only [List.getElem?_cons_zero, Option.some.injEq] at h
        rw [← h, exC_dir, eo]
        exact .cons (by unfold Reaches; dsimp only; omega) .nil
      | (n+1), h => simp at h)
  exact ⟨B, b1, b2⟩

/-- The periodic direction of `exAxs` alone, on one process: six nodes. -/
def exP0 : Layout Rat := lay (stage1 exactGuess2 exactGuess3 false 1 0 [1] [exAx0])

theorem exP_dir : exP0.dir = [⟨6, 0, 6, 8, 0, 8, 0, 8, 0, 6, 0, 6, 0, 8⟩] := by decide +kernel

theorem exSetupP : Setup exactGuess2 exactGuess3 false 1 [1] [exAx0] [(Ax.setUp exAx0).2] [exP0] := by
  have hL0 : stage1 exactGuess2 exactGuess3 false 1 0 [1] [exAx0] = .ok exP0 := rfl
  refine ⟨fun ax h => exAx_reached ax (by simp at h; simp [h]), by simp, rfl, by omega, ⟨rfl, ?_⟩, ?_⟩
  · intro r L h
    match r, h with
    | 0, h => simp only [List.getElem?_cons_zero, Option.some.injEq] at h; rw [← h]; exact hL0
    | (n+1), h => simp at h
  · intro ax h
    simp only [List.mem_cons, List.not_mem_nil, or_false] at h
    subst h
    exact ⟨fun _ => by decide +kernel, by simp⟩

theorem exP_world : world (appWorld [exP0]) = [[⟨6, 0, 6, 0, 8⟩]] := by
  simp only [world, appWorld, List.map_cons, List.map_nil, exP_dir]; rfl

theorem exP_overlaps : overlaps [-1] [(Ax.setUp exAx0).2] = [1] := by decide +kernel

/-- **C85 fails** at the seam of a periodic direction: with six nodes and overlap one, node 0 is in the block of node 5, but node 5 is not in the block
of node 0. -/
theorem C85_seam_refuted : Setup exactGuess2 exactGuess3 false 1 [1] [exAx0] [(Ax.setUp exAx0).2] [exP0] ∧
    NearMod [(Ax.setUp exAx0).2] (overlaps [-1] [(Ax.setUp exAx0).2]) [0] [5] ∧
    bbbBlock (world (appWorld [exP0])) 1 (exP0.dir.map gdir) [-1] [2] 0 [5] = .ok [4, 5, 0] ∧
    bbbBlock (world (appWorld [exP0])) 1 (exP0.dir.map gdir) [-1] [2] 0 [0] = .ok [0, 1] := by
  refine ⟨exSetupP, ⟨[-1], ?_, by decide +kernel⟩, ?_, ?_⟩
  · rw [exP_overlaps]; exact .cons (by omega) .nil
  · rw [exP_world, exP_dir]; decide +kernel
  · rw [exP_world, exP_dir]; decide +kernel

/-- The same periodic direction meets the hypotheses of `C85_spd_partial`. -/
example : ∃ B, bbb 2 [exP0] [-1] (fun i j => if i = j then (1:ℚ) else 0) = .ok B ∧
    PosDef (total [(Ax.setUp exAx0).2] 2) fun i j => B (i, j) := by
  obtain ⟨blocks, B, -, b1, -, b2⟩ := C85_spd_partial exSetupP 2 [-1] rfl (by
      rw [exP_overlaps]; exact .cons (fun _ => by decide +kernel) .nil)
    (fun i j => if i = j then (1:ℚ) else 0) (posDef_one _) (by simp) (by
      intro r L h
      match r, h with
      | 0, h =>
        simp only [List.getElem?_cons_zero, Option.some.injEq] at h
        rw [← h, exP_dir, exP_overlaps]
        exact .cons (by unfold Reaches; dsimp only; omega) .nil
      | (n+1), h => simp at h)
  exact ⟨B, b1, b2⟩

/-- **C85 fails** in a periodic direction with two nodes and overlap one: a block lists a node twice and setting up fails for every matrix. -/
theorem C85_repeated_refuted (A : Int → Int → V) :
    Setup exactGuess2 exactGuess3 false 1 [1] [exAxT] [(Ax.setUp exAxT).2] [exT0] ∧ ∀ B, bbb 1 [exT0] [-1] A ≠ .ok B := by
  refine ⟨exSetupT, ?_⟩
  have ew : world (appWorld [exT0]) = [[⟨2, 0, 2, 0, 4⟩]] := by
    simp only [world, appWorld, List.map_cons, List.map_nil, exT_dir]; rfl
  refine bbb_fails exSetupT 1 [-1] rfl A (r := 0) (L := exT0) rfl (x := [1]) (by rw [exT_dir]; exact .cons (by decide) .nil) (idx := [0, 1, 0]) ?_ (by decide)
  rw [ew, exT_dir]
  decide +kernel

end

end PetIGA.PCA
