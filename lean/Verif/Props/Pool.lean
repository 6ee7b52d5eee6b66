import Verif.Model.Pool
import Mathlib.Data.List.Nodup
import Mathlib.Data.List.Range
import Mathlib.Data.List.Perm.Basic

/-!
C29: the cache of local work vectors.

Specification vocabulary: `cached s` are the vectors stored in the cache, `s.held` those the program holds,
`s.dead` those released; `run create ops` is any history of `IGAGetLocalVec`, `IGARestoreLocalVec`, `IGAReset` and
`IGASetUp` calls on a new IGA.
-/

set_option linter.unusedSectionVars false

namespace PetIGA.Pool

/-- The vectors the cache stores. -/
def cached (s : State) : List Vec := (List.range s.nwork).filterMap s.vwork

/-- Working invariant. -/
structure Inv (s : State) : Prop where
  le : s.nwork ≤ cap
  full : ∀ i, i < s.nwork → (s.vwork i).isSome
  acc : ((cached s ++ s.held ++ s.dead).map Vec.id).Perm (List.range s.fresh)

theorem filterMap_congr_range {n : Nat} {f g : Nat → Option Vec} (h : ∀ i, i < n → f i = g i) :
    (List.range n).filterMap f = (List.range n).filterMap g := by
  apply List.filterMap_congr
  intro a ha
  exact h a (List.mem_range.1 ha)

theorem cached_succ (n : Nat) (w : Nat → Option Vec) (v : Vec) (h : w n = some v) :
    (List.range (n+1)).filterMap w = (List.range n).filterMap w ++ [v] := by
  rw [List.range_succ, List.filterMap_append]; simp [h]

theorem drain_spec : ∀ (n : Nat) (w : Nat → Option Vec) (d : List Vec), n ≤ cap → (∀ i, i < n → (w i).isSome) →
    ∃ w' d', drain n w d = .ok (w', d') ∧ d'.Perm ((List.range n).filterMap w ++ d) := by
  intro n
  induction n with
  | zero => intro w d _ _; exact ⟨w, d, rfl, by simp⟩
  | succ n ih =>
    intro w d hn hf
    obtain ⟨v, hv⟩ := Option.isSome_iff_exists.1 (hf n (by omega))
    have hr : read w n = .ok v := by simp [read, show n < cap by omega, hv]
    have hp : put w n none = .ok (fun j => if j = n then none else w j) := by simp [put, show n < cap by omega]
    obtain ⟨w', d', he, hpm⟩ := ih (fun j => if j = n then none else w j) (v :: d) (by omega)
      (by intro i hi; have : i ≠ n := by omega
          simp [this, hf i (by omega)])
    refine ⟨w', d', ?_, ?_⟩
    · simp [drain, hr, hp, Res.bind, he]
    · rw [cached_succ n w v hv]
      refine hpm.trans ?_
      rw [filterMap_congr_range (g := w) (by intro i hi; have : i ≠ n := by omega
                                             simp [this])]
      simp

theorem get_spec {s : State} (h : Inv s) (hr : s.ready = true) :
    ∃ v s', get s = (.ok v, s') ∧ Inv s' ∧ s'.held = v :: s.held ∧ s'.dead = s.dead ∧ s'.ready = true ∧ s'.lsize = s.lsize ∧
      (v ∈ cached s ∨ v.size = s.lsize) ∧ (∀ x, x ∈ cached s' → x ∈ cached s) := by
  by_cases hn : 0 < s.nwork
  · obtain ⟨n, hn'⟩ : ∃ n, s.nwork = n + 1 := ⟨s.nwork - 1, by omega⟩
    have hle := h.le
    obtain ⟨v, hv⟩ := Option.isSome_iff_exists.1 (h.full n (by omega))
    have h1 : read s.vwork (s.nwork - 1) = .ok v := by
      rw [hn']; simp [read, show n < cap by omega, hv]
    have h2 : put s.vwork (s.nwork - 1) none = .ok (fun j => if j = n then none else s.vwork j) := by
      rw [hn']; simp [put, show n < cap by omega]
    have hc : cached s = (List.range n).filterMap s.vwork ++ [v] := by
      rw [cached, hn', cached_succ n _ v hv]
    have hc' : (List.range n).filterMap (fun j => if j = n then none else s.vwork j) = (List.range n).filterMap s.vwork :=
      filterMap_congr_range (by intro i hi; have : i ≠ n := by omega
                                simp [this])
    refine ⟨v, { s with nwork := s.nwork - 1, vwork := fun j => if j = n then none else s.vwork j, held := v :: s.held },
      by simp only [get, hr, if_true, hn, h1, h2], ⟨by simp only; omega, ?_, ?_⟩, rfl, rfl, hr, rfl, ?_, ?_⟩
    · intro i hi
      simp only at hi
      have : i ≠ n := by omega
      simp [this, h.full i (by omega)]
    · refine List.Perm.trans (List.Perm.map _ ?_) h.acc
      simp only [cached, hn', Nat.add_sub_cancel]
      rw [hc', cached_succ n _ v hv]
      simp
    · left; rw [hc]; simp
    · intro x hx
      simp only [cached, hn', Nat.add_sub_cancel] at hx
      rw [hc'] at hx
      rw [hc]; exact List.mem_append_left _ hx
  · have h0 : s.nwork = 0 := by omega
    refine ⟨⟨s.fresh, s.lsize⟩, { s with held := ⟨s.fresh, s.lsize⟩ :: s.held, fresh := s.fresh + 1 },
      by simp only [get, hr, if_true, hn, if_false], ⟨h.le, h.full, ?_⟩, rfl, rfl, hr, rfl, .inr rfl, fun x hx => hx⟩
    have hc : ∀ w : State, w.nwork = 0 → cached w = [] := by intro w hw; simp [cached, hw]
    rw [hc { s with held := ⟨s.fresh, s.lsize⟩ :: s.held, fresh := s.fresh + 1 } h0, List.range_succ]
    have := h.acc
    rw [hc _ h0] at this
    simp only [List.nil_append, List.map_append, List.map_cons, List.cons_append] at this ⊢
    exact (List.Perm.cons _ this).trans (by simpa using (List.perm_append_singleton s.fresh (List.range s.fresh)).symm)

theorem restore_spec {s : State} (h : Inv s) (hr : s.ready = true) {v : Vec} (hv : v ∈ s.held) :
    ∃ s', restore s v = (.ok (), s') ∧ Inv s' ∧ s'.held = s.held.erase v ∧ s'.ready = true ∧ s'.lsize = s.lsize ∧
      (s.nwork < cap → cached s' = cached s ++ [v] ∧ s'.dead = s.dead) ∧
      (s.nwork = cap → cached s' = cached s ∧ s'.dead = v :: s.dead) := by
  have hper : (s.held).Perm (v :: s.held.erase v) := List.perm_cons_erase hv
  by_cases hn : s.nwork < cap
  · have h2 : put s.vwork s.nwork (some v) = .ok (fun j => if j = s.nwork then some v else s.vwork j) := by simp [put, hn]
    have hc' : (List.range (s.nwork+1)).filterMap (fun j => if j = s.nwork then some v else s.vwork j) = cached s ++ [v] := by
      rw [cached_succ s.nwork _ v (by simp), filterMap_congr_range (g := s.vwork)]
      · rfl
      · intro i hi; have : i ≠ s.nwork := by omega
        simp [this]
    refine ⟨{ s with nwork := s.nwork + 1, vwork := fun j => if j = s.nwork then some v else s.vwork j, held := s.held.erase v },
      by simp only [restore, hv, hr, hn, if_true, h2], ⟨by simp only; omega, ?_, ?_⟩, rfl, hr, rfl, fun _ => ⟨hc', rfl⟩,
      fun hh => absurd hh (by omega)⟩
    · intro i hi
      simp only at hi
      by_cases hi' : i = s.nwork
      · simp [hi']
      · simp [hi', h.full i (by omega)]
    · refine List.Perm.trans (List.Perm.map _ ?_) h.acc
      rw [show cached { s with nwork := s.nwork + 1, vwork := fun j => if j = s.nwork then some v else s.vwork j, held := s.held.erase v }
        = cached s ++ [v] from hc']
      refine List.Perm.append_right _ ?_
      simp only [List.append_assoc]
      exact List.Perm.append_left _ (by simpa using hper.symm)
  · have : s.nwork = cap := by have := h.le; omega
    refine ⟨{ s with held := s.held.erase v, dead := v :: s.dead },
      by simp only [restore, hv, hr, hn, if_true, if_false], ⟨h.le, h.full, ?_⟩, rfl, hr, rfl, fun hh => absurd hh hn,
      fun _ => ⟨rfl, rfl⟩⟩
    refine List.Perm.trans (List.Perm.map _ ?_) h.acc
    show (cached s ++ s.held.erase v ++ v :: s.dead).Perm (cached s ++ s.held ++ s.dead)
    simp only [List.append_assoc]
    refine List.Perm.append_left _ ?_
    exact List.perm_middle.trans (by simpa using List.Perm.append_right s.dead hper.symm)

theorem reset_spec {s : State} (h : Inv s) :
    ∃ s', reset s = (.ok (), s') ∧ Inv s' ∧ cached s' = [] ∧ s'.held = s.held ∧ s'.ready = false ∧ s'.lsize = s.lsize ∧
      s'.dead.Perm (cached s ++ s.dead) := by
  obtain ⟨w, d, he, hp⟩ := drain_spec s.nwork s.vwork s.dead h.le h.full
  refine ⟨{ s with ready := false, nwork := 0, vwork := w, dead := d }, by simp only [reset, he], ⟨Nat.zero_le _, by intro i hi; exact absurd hi (by simp), ?_⟩, by simp [cached], rfl, rfl, rfl, hp⟩
  refine List.Perm.trans (List.Perm.map _ ?_) h.acc
  simp only [cached, List.range_zero, List.filterMap_nil, List.nil_append]
  refine (List.Perm.append_left _ hp).trans ?_
  simp only [List.append_assoc]
  exact List.perm_append_comm_assoc _ _ _

theorem setUp_spec {s : State} (h : Inv s) (n : Nat) :
    ∃ s', setUp s n = (.ok (), s') ∧ Inv s' ∧ s'.held = s.held ∧ s'.ready = true ∧
      (s.ready = true → s' = s) ∧ (s.ready = false → cached s' = [] ∧ s'.lsize = n ∧ s'.dead.Perm (cached s ++ s.dead)) := by
  by_cases hr : s.ready = true
  · exact ⟨s, by simp [setUp, hr], h, rfl, hr, fun _ => rfl, fun hh => absurd hr (by simp [hh])⟩
  · obtain ⟨w, d, he, hp⟩ := drain_spec s.nwork s.vwork s.dead h.le h.full
    refine ⟨{ s with ready := true, lsize := n, nwork := 0, vwork := w, dead := d },
      by simp only [setUp, hr, he]; rfl, ⟨Nat.zero_le _, by intro i hi; exact absurd hi (by simp), ?_⟩, rfl, rfl,
      fun hh => absurd hh hr, fun _ => ⟨by simp [cached], rfl, hp⟩⟩
    refine List.Perm.trans (List.Perm.map _ ?_) h.acc
    simp only [cached, List.range_zero, List.filterMap_nil, List.nil_append]
    refine (List.Perm.append_left _ hp).trans ?_
    simp only [List.append_assoc]
    exact List.perm_append_comm_assoc _ _ _

theorem inv_step {s : State} (h : Inv s) (o : Op) : Inv (step s o).2 := by
  cases o with
  | get =>
    by_cases hr : s.ready = true
    · obtain ⟨v, s', he, hi, _⟩ := get_spec h hr
      simp only [step, he]; exact hi
    · simp only [step, get, hr, if_false]; exact h
  | restore v =>
    by_cases hv : v ∈ s.held
    · by_cases hr : s.ready = true
      · obtain ⟨s', he, hi, _⟩ := restore_spec h hr hv
        simp only [step, he]; exact hi
      · simp only [step, restore, hv, hr, if_false, if_true]; exact h
    · simp only [step, restore, hv, if_false]; exact h
  | reset => obtain ⟨s', he, hi, _⟩ := reset_spec h; simp only [step, he]; exact hi
  | setUp n => obtain ⟨s', he, hi, _⟩ := setUp_spec h n; simp only [step, he]; exact hi

theorem inv_create : Inv create := ⟨Nat.zero_le _, by intro i hi; exact absurd hi (by simp [create]), by simp [create, cached]⟩

theorem inv_foldl (ops : List Op) : ∀ s, Inv s → Inv (ops.foldl (fun s o => (step s o).2) s) := by
  induction ops with
  | nil => intro s h; exact h
  | cons o os ih => intro s h; exact ih _ (inv_step h o)

theorem inv_run (ops : List Op) : Inv (run create ops) := inv_foldl ops _ inv_create

/-- **C29, possession.**  After any history of calls, `IGAGetLocalVec` on a set-up IGA succeeds, and the vector it
returns is held by nobody, has not been released, and is no longer in the cache: no two callers ever hold the
same vector. -/
theorem C29_exclusive (ops : List Op) (hr : (run create ops).ready = true) :
    ∃ v s', get (run create ops) = (.ok v, s') ∧
      (∀ u ∈ (run create ops).held ++ (run create ops).dead ++ cached s', u.id ≠ v.id) ∧
      s'.held = v :: (run create ops).held ∧ (s'.held.map Vec.id).Nodup := by
  obtain ⟨v, s', he, hi, hh, hd, -, -, -, -⟩ := get_spec (inv_run ops) hr
  have hn : ((cached s' ++ s'.held ++ s'.dead).map Vec.id).Nodup := (hi.acc.nodup_iff).2 List.nodup_range
  refine ⟨v, s', he, ?_, hh, ?_⟩
  · intro u hu heq
    rw [hh, hd, List.map_append, List.map_append, List.map_cons, List.nodup_append, List.nodup_append, List.nodup_cons] at hn
    obtain ⟨⟨h1, ⟨h2, h3⟩, h4⟩, h5, h6⟩ := hn
    simp only [List.mem_append] at hu
    rcases hu with (hu | hu) | hu
    · exact h2 (heq ▸ List.mem_map_of_mem hu)
    · exact h6 v.id (by simp) u.id (List.mem_map_of_mem hu) heq.symm
    · exact h4 u.id (List.mem_map_of_mem hu) v.id (by simp) heq
  · rw [List.map_append, List.map_append, List.nodup_append, List.nodup_append] at hn
    exact hn.1.2.1

/-- **C29, accounting.**  After any history, every vector ever created is in exactly one place: cached, held by a
caller, or released; nothing leaks and nothing is released twice.  At most 16 vectors are cached. -/
theorem C29_accounting (ops : List Op) :
    ((cached (run create ops) ++ (run create ops).held ++ (run create ops).dead).map Vec.id).Perm
      (List.range (run create ops).fresh) ∧ (cached (run create ops)).length ≤ 16 := by
  refine ⟨(inv_run ops).acc, ?_⟩
  exact (List.length_filterMap_le _ _).trans (by simpa [cap] using (inv_run ops).le)

/-- **C29, safety.**  After any history no call has undefined behaviour, unless it gives back a vector the caller does
not hold; in particular the 16-entry array is never indexed out of range. -/
theorem C29_safe (ops : List Op) (o : Op) (ho : ∀ v, o = .restore v → v ∈ (run create ops).held) :
    (step (run create ops) o).1 ≠ .ub := by
  have h := inv_run ops
  cases o with
  | get =>
    by_cases hr : (run create ops).ready = true
    · obtain ⟨v, s', he, -⟩ := get_spec h hr
      simp [step, he]
    · simp [step, get, hr]
  | restore v =>
    have hv := ho v rfl
    by_cases hr : (run create ops).ready = true
    · obtain ⟨s', he, -⟩ := restore_spec h hr hv
      simp [step, he]
    · simp [step, restore, hv, hr]
  | reset => obtain ⟨s', he, -⟩ := reset_spec h; simp [step, he]
  | setUp n => obtain ⟨s', he, -⟩ := setUp_spec h n; simp [step, he]

/-- **C29, restore.**  Giving back a held vector on a set-up IGA succeeds; exactly that vector leaves the caller's
hands, and it goes to the cache when fewer than 16 are cached and is released otherwise. -/
theorem C29_restore (ops : List Op) (hr : (run create ops).ready = true) (v : Vec) (hv : v ∈ (run create ops).held) :
    ∃ s', restore (run create ops) v = (.ok (), s') ∧ s'.held = (run create ops).held.erase v ∧
      ((cached (run create ops)).length < 16 → v ∈ cached s' ∧ s'.dead = (run create ops).dead) ∧
      ((cached (run create ops)).length = 16 → cached s' = cached (run create ops) ∧ v ∈ s'.dead) := by
  have h := inv_run ops
  have hlen : (cached (run create ops)).length = (run create ops).nwork := by
    have : ∀ n, (∀ i, i < n → ((run create ops).vwork i).isSome) → ((List.range n).filterMap (run create ops).vwork).length = n := by
      intro n
      induction n with
      | zero => simp
      | succ n ih =>
        intro hf
        obtain ⟨v, hv⟩ := Option.isSome_iff_exists.1 (hf n (by omega))
        rw [cached_succ n _ v hv, List.length_append, ih (fun i hi => hf i (by omega))]; rfl
    exact this _ h.full
  obtain ⟨s', he, -, hh, -, -, h1, h2⟩ := restore_spec h hr hv
  refine ⟨s', he, hh, ?_, ?_⟩
  · intro hl; rw [hlen] at hl
    obtain ⟨ha, hb⟩ := h1 hl
    exact ⟨by rw [ha]; simp, hb⟩
  · intro hl; rw [hlen] at hl
    obtain ⟨ha, hb⟩ := h2 hl
    exact ⟨ha, by rw [hb]; simp⟩

/-- **C29, reset.**  `IGAReset` releases exactly the cached vectors; those the program holds stay valid. -/
theorem C29_reset (ops : List Op) :
    ∃ s', reset (run create ops) = (.ok (), s') ∧ cached s' = [] ∧ s'.held = (run create ops).held ∧
      s'.dead.Perm (cached (run create ops) ++ (run create ops).dead) := by
  obtain ⟨s', he, -, h1, h2, -, -, h3⟩ := reset_spec (inv_run ops)
  exact ⟨s', he, h1, h2, h3⟩

/-- A history in which the program holds no local vector whenever it resets the IGA. -/
def NoCrossing (ops : List Op) : Prop :=
  ∀ pre post, ops = pre ++ Op.reset :: post → (run create pre).held = []

theorem run_append (s : State) (a b : List Op) : run s (a ++ b) = run (run s a) b := by simp [run]

theorem size_inv (ops : List Op) : NoCrossing ops →
    (∀ v ∈ cached (run create ops) ++ (run create ops).held, v.size = (run create ops).lsize) ∧
    ((run create ops).ready = false → (run create ops).held = []) := by
  induction ops using List.reverseRecOn with
  | nil => intro _; simp [run, create, cached]
  | append_singleton os o ih =>
    intro hn
    have hpre : NoCrossing os := by
      intro pre post h
      exact hn pre (post ++ [o]) (by rw [h]; simp)
    obtain ⟨ih1, ih2⟩ := ih hpre
    have h := inv_run os
    have hrun : run create (os ++ [o]) = (step (run create os) o).2 := by simp [run]
    rw [hrun]
    generalize hs : run create os = s at *
    cases o with
    | get =>
      by_cases hr : s.ready = true
      · obtain ⟨v, s', he, hi, hh, hd, hr', hl, hv, hc⟩ := get_spec h hr
        simp only [step, he]
        refine ⟨?_, by simp [hr']⟩
        intro u hu
        rw [hh, List.mem_append, List.mem_cons] at hu
        rw [hl]
        rcases hu with hu | hu | hu
        · exact ih1 u (List.mem_append_left _ (hc u hu))
        · subst hu
          rcases hv with hv | hv
          · exact ih1 u (List.mem_append_left _ hv)
          · exact hv
        · exact ih1 u (List.mem_append_right _ hu)
      · simp only [step, get, hr, if_false]; exact ⟨ih1, ih2⟩
    | restore v =>
      by_cases hv : v ∈ s.held
      · by_cases hr : s.ready = true
        · obtain ⟨s', he, hi, hh, hr', hl, h1, h2⟩ := restore_spec h hr hv
          simp only [step, he]
          refine ⟨?_, by simp [hr']⟩
          intro u hu
          rw [hl]
          rw [hh, List.mem_append] at hu
          rcases hu with hu | hu
          · by_cases hlt : s.nwork < cap
            · rw [(h1 hlt).1, List.mem_append, List.mem_singleton] at hu
              rcases hu with hu | hu
              · exact ih1 u (List.mem_append_left _ hu)
              · subst hu; exact ih1 u (List.mem_append_right _ hv)
            · have := h.le
              rw [(h2 (by omega)).1] at hu
              exact ih1 u (List.mem_append_left _ hu)
          · exact ih1 u (List.mem_append_right _ (List.mem_of_mem_erase hu))
        · simp only [step, restore, hv, hr, if_false, if_true]; exact ⟨ih1, ih2⟩
      · simp only [step, restore, hv, if_false]; exact ⟨ih1, ih2⟩
    | reset =>
      have h0 : s.held = [] := by rw [← hs]; exact hn os [] rfl
      obtain ⟨s', he, hi, hc, hh, hr', -⟩ := reset_spec h
      simp only [step, he, hc, hh, h0]; simp
    | setUp n =>
      obtain ⟨s', he, hi, hh, hr', h1, h2⟩ := setUp_spec h n
      simp only [step, he]
      refine ⟨?_, by simp [hr']⟩
      cases hr : s.ready with
      | true => rw [h1 hr]; exact ih1
      | false => rw [(h2 hr).1, hh, ih2 hr]; simp

/-- **C29, size (partial).**  If the program never holds a local vector across an `IGAReset`, every local vector it
gets has the local size of the current mesh.  Missing: histories that hold a vector across a reset, for which
the claim is false, see `C29_size_refuted`. -/
theorem C29_size_partial (ops : List Op) (hn : NoCrossing ops) (v : Vec) (s' : State)
    (hg : get (run create ops) = (.ok v, s')) : v.size = (run create ops).lsize := by
  have hr : (run create ops).ready = true := by
    by_contra hr
    simp [get, hr] at hg
  obtain ⟨w, t, he, -, hh, -, -, -, hw, -⟩ := get_spec (inv_run ops) hr
  rw [he] at hg
  cases hg
  rcases hw with hw | hw
  · exact (size_inv ops hn).1 _ (List.mem_append_left _ hw)
  · exact hw

/-- The history of the counterexample: a vector is obtained on a mesh with 4 local unknowns, the IGA is reset and set up
again with 6, and the vector is given back. -/
def crossing : List Op := [.setUp 4, .get, .reset, .setUp 6, .restore ⟨0, 4⟩]

/-- **C29, size, refuted.**  Every call of `crossing` succeeds, and the next `IGAGetLocalVec` returns a vector of 4
entries on a mesh whose local size is 6: neither the get nor the restore compares sizes. -/
theorem C29_size_refuted :
    ∃ (ops : List Op) (v : Vec) (s' : State), (∀ pre o post, ops = pre ++ o :: post → (step (run create pre) o).1.isOk = true) ∧
      get (run create ops) = (.ok v, s') ∧ v.size ≠ (run create ops).lsize := by
  refine ⟨crossing, ⟨0, 4⟩, (get (run create crossing)).2, ?_, rfl, by decide⟩
  intro pre o post h
  have hl : pre.length < 5 := by
    have := congrArg List.length h
    simp [crossing] at this; omega
  have hp : pre = crossing.take pre.length := by rw [h]; simp
  have ho : crossing[pre.length]? = some o := by rw [h]; simp
  generalize pre.length = k at hl hp ho
  subst hp
  have hk : k = 0 ∨ k = 1 ∨ k = 2 ∨ k = 3 ∨ k = 4 := by omega
  rcases hk with rfl | rfl | rfl | rfl | rfl <;> (simp [crossing] at ho; subst ho; rfl)

/-- Hypotheses of the C29 theorems are met: 17 vectors obtained and 17 given back, on a set-up IGA; 16 are
cached and one is released. -/
example :
    let ops := Op.setUp 4 :: (List.replicate 17 Op.get ++ (List.range 17).map fun i => Op.restore ⟨i, 4⟩)
    (run create ops).ready = true ∧ (cached (run create ops)).length = 16 ∧ (run create ops).held = [] ∧
      (run create ops).dead = [⟨16, 4⟩] := by decide +kernel

example : NoCrossing [.setUp 4, .get, .restore ⟨0, 4⟩, .reset, .setUp 6, .get] := by
  intro pre post h
  have hl : pre.length < 6 := by
    have := congrArg List.length h
    simp at this; omega
  have ho := congrArg (fun l => l[pre.length]?) h
  have hp : pre = ([.setUp 4, .get, .restore ⟨0, 4⟩, .reset, .setUp 6, .get] : List Op).take pre.length := by rw [h]; simp
  simp only [List.getElem?_append_right (Nat.le_refl _), Nat.sub_self, List.getElem?_cons_zero] at ho
  generalize pre.length = k at hl hp ho
  subst hp
  have hk : k = 0 ∨ k = 1 ∨ k = 2 ∨ k = 3 ∨ k = 4 ∨ k = 5 := by omega
  rcases hk with rfl | rfl | rfl | rfl | rfl | rfl <;> first | (simp at ho; done) | rfl

end PetIGA.Pool
