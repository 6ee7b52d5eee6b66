import Verif.Model.Opts
import Mathlib.Data.List.Nodup
/-
C103: aliases, defaults and disabled options.
-/
set_option linter.unusedSectionVars false
namespace PetIGA.Opts

theorem buf_short {s : String} (h : s.length ≤ 1023) : buf s = s := by
  unfold buf
  rw [List.take_of_length_le (by rw [String.length_toList]; exact h), String.ofList_toList]

/-- **C103, default.**  `IGAOptionsDefault` gives the option the value unless the user gave one, and changes no other option. -/
theorem C103_default (db : DB) (pre name value key : String) :
    default db pre name value key = (if key = pre ++ name then some ((db key).getD value) else db key) := by
  unfold default hasName setValue
  by_cases h : (db (pre ++ name)).isSome = true
  · rw [if_pos h]
    split_ifs with hk
    · obtain ⟨v, hv⟩ := Option.isSome_iff_exists.1 h
      rw [hk, hv]; rfl
    · rfl
  · rw [if_neg h]
    split_ifs with hk
    · rw [hk, Option.not_isSome_iff_eq_none.1 h]; rfl
    · rfl

/-- The user's value of an option with an alias: the alias if given, else the option itself, else the default. -/
def wanted (db : DB) (al : String) (defval : Option String) (name : String) : Option String := (db al).or ((db name).or defval)

/-- **C103, alias (partial).**  For values of at most 1023 characters `IGAOptionsAlias` gives the option the value of the alias, else leaves the value the user gave, else
sets the default, and changes no other option.  Missing: longer values, see `C103_alias_refuted`. -/
theorem C103_alias_partial (db : DB) (al : String) (defval : Option String) (name key : String)
    (h1 : ∀ v, db al = some v → v.length ≤ 1023) (h2 : ∀ v, defval = some v → v.length ≤ 1023) :
    setAlias db al defval name key = if key = name then wanted db al defval name else db key := by
  unfold setAlias hasName setValue wanted
  simp only [String.empty_append]
  cases ha : db al with
  | some v =>
    simp only [Option.isSome_some, if_true, Option.or_some, buf_short (h1 v ha)]
    split_ifs <;> simp
  | none =>
    simp only [Option.isSome_none, Bool.false_eq_true, if_false, Option.none_or]
    cases defval with
    | none =>
      simp only [Option.or_none]
      split_ifs with hk
      · rw [hk]
      · rfl
    | some d =>
      cases hn : db name with
      | some w =>
        simp only [Option.isSome_some, if_true, Option.or_some]
        split_ifs with hk
        · rw [hk, hn]; simp
        · rfl
      | none =>
        simp only [Option.isSome_none, Bool.false_eq_true, if_false, Option.none_or, buf_short (h2 d rfl)]

/-- What the alias function promises without the restriction on the length. -/
def C103_alias_full : Prop := ∀ (db : DB) (al : String) (defval : Option String) (name : String),
  setAlias db al defval name name = wanted db al defval name

/-- **C103, refuted**: a value of more than 1023 characters (a long list, a long path) is cut without an error. -/
theorem C103_alias_refuted : ¬ C103_alias_full := by
  intro h
  obtain ⟨v, hv⟩ : ∃ v : String, v.length = 1024 := ⟨String.ofList (List.replicate 1024 'a'), by rw [String.length_ofList, List.length_replicate]⟩
  have h := h (fun k => if k = "f" then some v else none) "f" none "load"
  unfold setAlias hasName setValue wanted at h
  simp only [String.empty_append, if_true, Option.isSome_some, Option.some_or, Option.some.injEq, buf] at h
  have := congrArg String.length h
  rw [String.length_ofList, List.length_take, String.length_toList, hv] at this
  omega

/-- A list of aliases, as at the start of the demo programs: alias, default, option. -/
abbrev Aliases := List (String × Option String × String)

/-- The calls one after the other. -/
def aliases (db : DB) (l : Aliases) : DB := l.foldl (fun db a => setAlias db a.1 a.2.1 a.2.2) db

/-- **C103, programs (partial).**  After any list of alias calls for different options none of which is itself used as an alias, every option has the value wanted from the original database,
whatever the order of the calls; options not named are as they were. -/
theorem C103_aliases_partial (l : Aliases) : ∀ (db : DB), (l.map fun a => a.2.2).Nodup → (∀ a ∈ l, ∀ b ∈ l, a.1 ≠ b.2.2) →
    (∀ a ∈ l, (∀ v, db a.1 = some v → v.length ≤ 1023) ∧ ∀ v, a.2.1 = some v → v.length ≤ 1023) →
    (∀ a ∈ l, aliases db l a.2.2 = wanted db a.1 a.2.1 a.2.2) ∧ ∀ key, (∀ a ∈ l, a.2.2 ≠ key) → aliases db l key = db key := by
  induction l with
  | nil => intro db _ _ _; exact ⟨fun a ha => by simp at ha, fun _ _ => rfl⟩
  | cons x l ih =>
    intro db hn hd hl
    simp only [List.map_cons, List.nodup_cons, List.mem_map, not_exists, not_and] at hn
    have hx : ∀ key, setAlias db x.1 x.2.1 x.2.2 key = if key = x.2.2 then wanted db x.1 x.2.1 x.2.2 else db key := fun key =>
      C103_alias_partial db x.1 x.2.1 x.2.2 key (hl x (by simp)).1 (hl x (by simp)).2
    have e1 : ∀ a ∈ l, setAlias db x.1 x.2.1 x.2.2 a.1 = db a.1 := fun a ha => by
      rw [hx, if_neg (hd a (by simp [ha]) x (by simp))]
    have e2 : ∀ a ∈ l, setAlias db x.1 x.2.1 x.2.2 a.2.2 = db a.2.2 := fun a ha => by
      rw [hx, if_neg (fun e => hn.1 a ha e)]
    obtain ⟨h1, h2⟩ := ih (setAlias db x.1 x.2.1 x.2.2) hn.2 (fun a ha b hb => hd a (by simp [ha]) b (by simp [hb]))
      (fun a ha => by rw [e1 a ha]; exact hl a (by simp [ha]))
    refine ⟨fun a ha => ?_, fun key hk => ?_⟩
    · rcases List.mem_cons.1 ha with rfl | ha
      · show aliases (setAlias db a.1 a.2.1 a.2.2) l a.2.2 = _
        rw [h2 a.2.2 fun b hb => hn.1 b hb, hx, if_pos rfl]
      · show aliases (setAlias db x.1 x.2.1 x.2.2) l a.2.2 = _
        rw [h1 a ha]
        unfold wanted
        rw [e1 a ha, e2 a ha]
    · show aliases (setAlias db x.1 x.2.1 x.2.2) l key = _
      rw [h2 key fun b hb => hk b (by simp [hb]), hx, if_neg (fun e => hk x (by simp) e.symm)]

/-- The aliases of demo/L2Projection.c with `-N 8 -iga_dim 3` on the command line: 8 elements, dimension 3, limits by default, no degree. -/
example : ∃ db', db' = aliases (fun k => if k = "N" then some "8" else if k = "iga_dim" then some "3" else none)
      [("d", some "2", "iga_dim"), ("N", some "16", "iga_elements"), ("L", some "-1,1", "iga_limits"), ("p", none, "iga_degree")] ∧
    db' "iga_dim" = some "3" ∧ db' "iga_elements" = some "8" ∧ db' "iga_limits" = some "-1,1" ∧ db' "iga_degree" = none := by
  obtain ⟨h, -⟩ := C103_aliases_partial [("d", some "2", "iga_dim"), ("N", some "16", "iga_elements"), ("L", some "-1,1", "iga_limits"), ("p", none, "iga_degree")]
    (fun k => if k = "N" then some "8" else if k = "iga_dim" then some "3" else none) (by decide) (by decide) (by
      intro a ha
      simp only [List.mem_cons, List.not_mem_nil, or_false] at ha
      rcases ha with rfl | rfl | rfl | rfl <;> refine ⟨fun v hv => ?_, fun v hv => ?_⟩ <;> simp at hv <;> subst hv <;> decide)
  refine ⟨_, rfl, ?_, ?_, ?_, ?_⟩
  · rw [h ("d", some "2", "iga_dim") (by simp)]; rfl
  · rw [h ("N", some "16", "iga_elements") (by simp)]; rfl
  · rw [h ("L", some "-1,1", "iga_limits") (by simp)]; rfl
  · rw [h ("p", none, "iga_degree") (by simp)]; rfl

/-- **C103, disabled options**: `IGAOptionsReject` reports an error exactly when the user gave the option. -/
theorem C103_reject (db : DB) (pre name : String) : (reject db pre name).isOk = false ↔ ∃ v, db (pre ++ name) = some v := by
  unfold reject hasName
  cases db (pre ++ name) <;> simp [Res.isOk]

/-- **C103, values**: the user's value if there is one that can be read, the default if there is none; a value that cannot be read never turns into a number. -/
theorem C103_get {α : Type} (parse : String → Option α) (db : DB) (pre name : String) (d a : α) :
    getOpt parse db pre name d = .ok a ↔ (∃ v, db (pre ++ name) = some v ∧ parse v = some a) ∨ (db (pre ++ name) = none ∧ a = d) := by
  unfold getOpt
  cases h : db (pre ++ name) with
  | none => simp [eq_comm]
  | some v => cases hp : parse v <;> simp [hp]

/-- **C103, texts (partial)**: right after a call of `IGAGetOptString`, whatever calls came before, the result is the user's text or the default (of at most 1023 characters). -/
theorem C103_string_partial (db : DB) (before : Calls) (pre name d : String) (h : ((db (pre ++ name)).getD d).length ≤ 1023) :
    bufferAfter db (before ++ [(pre, name, d)]) = (db (pre ++ name)).getD d := by
  unfold bufferAfter
  rw [List.foldl_append]
  simp only [List.foldl_cons, List.foldl_nil]
  unfold getOptString
  cases hv : db (pre ++ name) with
  | none => rw [hv] at h; exact buf_short h
  | some v => rw [hv] at h; exact buf_short h

/-- What a caller expects who keeps the results of several calls. -/
def C103_string_full : Prop := ∀ (db : DB) (before after : Calls) (pre name d : String), ((db (pre ++ name)).getD d).length ≤ 1023 →
  bufferAfter db (before ++ [(pre, name, d)] ++ after) = (db (pre ++ name)).getD d

/-- **C103, refuted**: a later call overwrites the text an earlier call returned. -/
theorem C103_string_refuted : ¬ C103_string_full := by
  intro h
  have := h (fun _ => none) [] [("", "b", "second")] "" "a" "first" (by decide)
  revert this
  decide

example : bufferAfter (fun k => if k = "iga_name" then some "x" else none) [("", "other", "y"), ("iga_", "name", "z")] = "x" :=
  C103_string_partial (fun k => if k = "iga_name" then some "x" else none) [("", "other", "y")] "iga_" "name" "z" (by decide)

end PetIGA.Opts
