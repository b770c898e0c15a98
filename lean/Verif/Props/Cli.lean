import Verif.Spec.Cli
import Mathlib.Data.List.Basic
import Mathlib.Data.List.Nodup
import Mathlib.Tactic.Linarith

/-!
# C42 to C45, C60: option values, log, pipeline, command line, output
-/

namespace Verif.Props

open Verif.Serialize Verif.Cli Verif.Log Verif.Spec
open Verif.ReadingOrder (Role)
open Verif.Text (Str)

/-! ### C42 -/

theorem findName_some {token : Str} {i j : ℕ} {ns : List Str} (h : findName token i ns = some j) :
    ∃ k, j = i + k ∧ ns[k]? = some token := by
  induction ns generalizing i with
  | nil => cases h
  | cons n ns ih =>
    unfold findName at h
    by_cases hn : token = n
    · rw [if_pos hn] at h
      cases h
      exact ⟨0, rfl, by rw [hn]; rfl⟩
    · rw [if_neg hn] at h
      obtain ⟨k, h1, h2⟩ := ih h
      exact ⟨k + 1, by omega, by simpa using h2⟩

theorem findName_none {token : Str} {i : ℕ} {ns : List Str} : findName token i ns = none ↔ token ∉ ns := by
  induction ns generalizing i with
  | nil => simp [findName]
  | cons n ns ih =>
    unfold findName
    by_cases hn : token = n
    · simp [hn]
    · rw [if_neg hn, ih]; simp [hn]

theorem findName_lt {token : Str} {i j : ℕ} {ns : List Str} (h : findName token i ns = some j) :
    j < i + ns.length ∧ i ≤ j := by
  obtain ⟨k, h1, h2⟩ := findName_some h
  have : k < ns.length := by
    by_contra hc
    rw [List.getElem?_eq_none (by omega)] at h2; cases h2
  omega

theorem findName_table {α : Type} [DecidableEq α] (tab : List (String × α)) (ofNum : ℕ → α)
    (hof : ∀ k < tab.length, (tab[k]?).map Prod.snd = some (ofNum k))
    (hnd : (tab.map fun p => p.1.toList).Nodup) (token : Str) (r : α) :
    (∃ i, findName token 0 (tab.map fun p => p.1.toList) = some i ∧ ofNum i = r) ↔
      ∃ name, (name, r) ∈ tab ∧ token = name.toList := by
  constructor
  · rintro ⟨i, hf, hr⟩
    obtain ⟨k, h1, h2⟩ := findName_some hf
    have hlt := (findName_lt hf).1
    rw [Nat.zero_add] at h1 hlt
    subst h1
    rw [List.length_map] at hlt
    rw [List.getElem?_map, List.getElem?_eq_getElem hlt] at h2
    have h3 := hof i hlt
    rw [List.getElem?_eq_getElem hlt] at h3
    simp only [Option.map_some, Option.some.injEq] at h2 h3
    exact ⟨tab[i].1, by rw [← hr, ← h3]; exact List.getElem_mem hlt, h2.symm⟩
  · rintro ⟨name, hm, rfl⟩
    cases hf : findName name.toList 0 (tab.map fun p => p.1.toList) with
    | none =>
      rw [findName_none] at hf
      exact absurd (List.mem_map.mpr ⟨(name, r), hm, rfl⟩) hf
    | some i =>
      refine ⟨i, rfl, ?_⟩
      obtain ⟨k, h1, h2⟩ := findName_some hf
      have hlt := (findName_lt hf).1
      rw [Nat.zero_add] at h1 hlt
      subst h1
      rw [List.length_map] at hlt
      obtain ⟨j, hj, hje⟩ := List.mem_iff_getElem.mp hm
      have hij : i = j := by
        have e1 : (tab.map fun p => p.1.toList)[j]'(by rw [List.length_map]; exact hj) = name.toList := by
          rw [List.getElem_map, hje]
        have e2 : (tab.map fun p => p.1.toList)[i]'(by rw [List.length_map]; exact hlt) = name.toList := by
          rw [List.getElem?_eq_getElem (by rw [List.length_map]; exact hlt)] at h2
          simpa using h2
        exact (List.Nodup.getElem_inj_iff hnd).mp (e2.trans e1.symm)
      subst hij
      have h3 := hof i hlt
      rw [List.getElem?_eq_getElem hlt, hje] at h3
      simpa using h3.symm

theorem roleNames_eq : roleNames = roleTable.map fun p => p.1.toList := by decide +kernel

theorem typeNames_eq : typeNames = typeTable.map fun p => p.1.toList := by decide +kernel

/-- C42: a value of `--role` is accepted exactly if it is one of the documented names, and selects
the role of this name; any other value is reported as an error. -/
theorem c42_role (token : Str) :
    (∀ r, validateRole token = .ok r ↔ ∃ name, (name, r) ∈ roleTable ∧ token = name.toList) ∧
    ((∀ name r, (name, r) ∈ roleTable → token ≠ name.toList) → (validateRole token).isThrow = true) := by
  have key := fun r => findName_table roleTable roleOfNum (by decide +kernel) (by decide +kernel) token r
  rw [← roleNames_eq] at key
  constructor
  · intro r
    rw [← key r]
    unfold validateRole
    cases hf : findName token 0 roleNames with
    | none => simp
    | some i => simp
  · intro h
    unfold validateRole
    cases hf : findName token 0 roleNames with
    | none => rfl
    | some i =>
      obtain ⟨name, h1, h2⟩ := (key (roleOfNum i)).mp ⟨i, hf, rfl⟩
      exact absurd h2 (h _ _ h1)

/-- C42: the same for `--type`. -/
theorem c42_type (token : Str) :
    (∀ t, validateType token = .ok t ↔ ∃ name, (name, t) ∈ typeTable ∧ token = name.toList) ∧
    ((∀ name t, (name, t) ∈ typeTable → token ≠ name.toList) → (validateType token).isThrow = true) := by
  have key := fun r => findName_table typeTable typeOfNum (by decide +kernel) (by decide +kernel) token r
  rw [← typeNames_eq] at key
  constructor
  · intro r
    rw [← key r]
    unfold validateType
    cases hf : findName token 0 typeNames with
    | none => simp
    | some i => simp
  · intro h
    unfold validateType
    cases hf : findName token 0 typeNames with
    | none => rfl
    | some i =>
      obtain ⟨name, h1, h2⟩ := (key (typeOfNum i)).mp ⟨i, hf, rfl⟩
      exact absurd h2 (h _ _ h1)

/-- C42 for `--format`, whatever the order of the hash map is: exactly the formats listed by `--help`
are accepted. -/
theorem c42_format (s : SerializersOrder) (token : Str) :
    (∀ f, validateFormat s token = .ok f ↔ ∃ name, (name, f) ∈ formatTable ∧ token = name.toList) ∧
    ((∀ name f, (name, f) ∈ formatTable → token ≠ name.toList) → (validateFormat s token).isThrow = true) := by
  have hmem : ∀ f, f ∈ s.order ↔ f = .txt ∨ f = .txtExtended := by
    intro f; rw [s.perm.mem_iff]; simp
  have htab : ∀ f, (∃ name, (name, f) ∈ formatTable ∧ token = name.toList) ↔
      f ∈ s.order ∧ token = getFormatName f := by
    intro f
    rw [hmem]
    cases f with
    | txt =>
      have : getFormatName .txt = "txt".toList := rfl
      rw [this]
      constructor
      · rintro ⟨n, h1, h2⟩
        simp only [formatTable, List.mem_cons, Prod.mk.injEq, List.not_mem_nil, or_false, and_true, reduceCtorEq,
          and_false] at h1
        subst h1; exact ⟨by simp, h2⟩
      · rintro ⟨_, h⟩
        exact ⟨"txt", by simp [formatTable], h⟩
    | txtExtended =>
      have : getFormatName .txtExtended = "txt-extended".toList := rfl
      rw [this]
      constructor
      · rintro ⟨n, h1, h2⟩
        simp only [formatTable, List.mem_cons, Prod.mk.injEq, List.not_mem_nil, or_false, and_true, reduceCtorEq,
          and_false, false_or] at h1
        subst h1; exact ⟨by simp, h2⟩
      · rintro ⟨_, h⟩
        exact ⟨"txt-extended", by simp [formatTable], h⟩
    | jsonl => simp [formatTable]
  have hinj : ∀ f g : Format, getFormatName f = getFormatName g → f = g := by
    intro f g; cases f <;> cases g <;> first | (intro _; rfl) | (intro h; exact absurd h (by decide +kernel))
  constructor
  · intro f
    rw [htab]
    unfold validateFormat
    cases hf : s.order.find? (fun f => decide (token = getFormatName f)) with
    | none =>
      simp only [reduceCtorEq, false_iff, not_and]
      intro h1 h2
      exact absurd (List.find?_eq_none.mp hf f h1) (by simp [h2])
    | some g =>
      have h1 := List.mem_of_find?_eq_some hf
      have h2 := List.find?_some hf
      simp only [decide_eq_true_eq] at h2
      simp only [Outcome.ok.injEq]
      constructor
      · rintro rfl; exact ⟨h1, h2⟩
      · rintro ⟨_, h3⟩
        exact hinj _ _ (h2.symm.trans h3)
  · intro h
    unfold validateFormat
    cases hf : s.order.find? (fun f => decide (token = getFormatName f)) with
    | none => rfl
    | some g =>
      have h1 := List.mem_of_find?_eq_some hf
      have h2 := List.find?_some hf
      simp only [decide_eq_true_eq] at h2
      obtain ⟨n, h3, h4⟩ := (htab g).mpr ⟨h1, h2⟩
      exact absurd h4 (h _ _ h3)

/-- Finding: the format `jsonl` is announced by the README and has a name, but its serializer is not
registered, so the program never writes JSONL: `--format jsonl` is an error. -/
theorem c42_jsonl_rejected (s : SerializersOrder) :
    getFormatName .jsonl = "jsonl".toList ∧ Format.jsonl ∈ getFormats ∧
      (validateFormat s "jsonl".toList).isThrow = true := by
  refine ⟨rfl, by decide +kernel, (c42_format s _).2 ?_⟩
  intro name f h
  simp only [formatTable, List.mem_cons, Prod.mk.injEq, List.not_mem_nil, or_false] at h
  rcases h with ⟨rfl, _⟩ | ⟨rfl, _⟩ <;> decide +kernel

/-- C42: listing all roles or types by their names and parsing the names again is the identity; the
lists contain every role and every type, once. -/
theorem c42_names_round_trip :
    validateAll validateRole (getRoles.map getRoleName) = .ok getRoles ∧ (∀ r, r ∈ getRoles) ∧ getRoles.Nodup ∧
    validateAll validateType (getTypes.map getTypeName) = .ok getTypes ∧ (∀ t, t ∈ getTypes) ∧ getTypes.Nodup ∧
    (∀ r, validateRole (getRoleName r) = .ok r) ∧ (∀ t, validateType (getTypeName t) = .ok t) := by
  refine ⟨by decide +kernel, ?_, by decide +kernel, by decide +kernel, ?_, by decide +kernel, ?_, ?_⟩
  · intro r; cases r <;> decide +kernel
  · intro t; cases t <;> decide +kernel
  · intro r; cases r <;> decide +kernel
  · intro t; cases t <;> decide +kernel

/-- C42: the list of the formats contains every format, once, and their names are the announced ones. -/
theorem c42_format_names : (∀ f, f ∈ getFormats) ∧ getFormats.Nodup ∧
    getFormats.map (fun f => (f, getFormatName f)) =
      [(.txt, "txt".toList), (.txtExtended, "txt-extended".toList), (.jsonl, "jsonl".toList)] := by
  refine ⟨?_, by decide +kernel, by decide +kernel⟩
  intro f; cases f <;> decide +kernel

theorem joinNames_spec (sep acc : Str) (ns : List Str) (hacc : acc ≠ []) (hn : ∀ n ∈ ns, n ≠ []) :
    joinNames sep acc ns = List.intercalate sep (acc :: ns) := by
  induction ns generalizing acc with
  | nil => simp [joinNames, List.intercalate]
  | cons n ns ih =>
    have hl : acc.length > 0 := List.length_pos_of_ne_nil hacc
    rw [joinNames, if_pos hl, ih _ (by simp [hacc]) (fun m hm => hn m (by simp [hm]))]
    cases ns with
    | nil => simp [List.intercalate, List.intersperse]
    | cons m ms => simp [List.intercalate, List.intersperse]

/-- C42: the lists of valid values in the help text name every value, separated by the separator. -/
theorem c42_help_lists (sep : Str) :
    joinNames sep [] roleNames = List.intercalate sep (roleTable.map fun p => p.1.toList) ∧
    joinNames sep [] typeNames = List.intercalate sep (typeTable.map fun p => p.1.toList) := by
  have h : ∀ n ns, n ≠ [] → (∀ m ∈ ns, m ≠ []) → joinNames sep [] (n :: ns) = List.intercalate sep (n :: ns) := by
    intro n ns h1 h2
    rw [joinNames]
    exact joinNames_spec sep n ns h1 h2
  rw [← roleNames_eq, ← typeNames_eq]
  exact ⟨h _ _ (by decide +kernel) (by decide +kernel), h _ _ (by decide +kernel) (by decide +kernel)⟩

/-! ### C43 -/

theorem atLeast_iff (a b : Level) : AtLeast a b ↔ b.num ≤ a.num := by
  unfold AtLeast
  cases a <;> cases b <;> decide +kernel

theorem getostream_iff (l : Logger) (level : Level) (page : ℤ) :
    getostream l level page = true ↔ AtLeast level l.logLevel ∧ PagePasses l.pageFilter page := by
  rw [atLeast_iff]
  unfold getostream PagePasses
  by_cases h1 : l.logLevel.num > level.num
  · rw [if_pos h1]; simp; omega
  · rw [if_neg h1]
    by_cases h2 : l.pageFilter > 0 ∧ page > 0 ∧ l.pageFilter ≠ page
    · rw [if_pos h2]; simp; omega
    · rw [if_neg h2]; simp; omega

/-- C43: a message is appended to the console exactly if its severity is at least the configured
level and the page filter lets it pass; otherwise the console does not change. -/
theorem c43_printed_iff (l : Logger) (console : Str) (level : Level) (page : ℤ) (stamp text : Str) :
    (AtLeast level l.logLevel ∧ PagePasses l.pageFilter page →
      ∃ pre, log l console level page stamp text = console ++ (stamp ++ pre ++ text)) ∧
    (¬ (AtLeast level l.logLevel ∧ PagePasses l.pageFilter page) →
      log l console level page stamp text = console) := by
  unfold log
  constructor
  · intro h
    rw [if_pos ((getostream_iff l level page).mpr h)]
    exact ⟨['\t', '-', ' '] ++ levelStr level ++ [' '], by simp [messagePrefix]⟩
  · intro h
    rw [if_neg (fun h' => h ((getostream_iff l level page).mp h'))]

theorem run_append (l : Logger) (c : Str) (ss ts : List Step) :
    Log.run l c (ss ++ ts) = Log.run (Log.run l c ss).1 (Log.run l c ss).2 ts := by
  induction ss generalizing l c with
  | nil => rfl
  | cons s ss ih => cases s <;> simp only [List.cons_append, Log.run] <;> exact ih _ _

theorem run_settings (l : Logger) (c : Str) (ss : List Step) :
    (Log.run l c ss).1 = { logLevel := levelAfter l ss, pageFilter := filterAfter l ss } := by
  induction ss generalizing l c with
  | nil => rfl
  | cons s ss ih =>
    have hl : ∀ {α : Type} (x : α) (xs : List α) (d : α), ((x :: xs).getLast?).getD d = (xs.getLast?).getD x := by
      intro α x xs d
      rw [List.getLast?_cons]; rfl
    cases s with
    | message lv p st t => rw [Log.run, ih]; simp [levelAfter, filterAfter]
    | level lv =>
      rw [Log.run, ih]
      simp only [levelAfter, filterAfter, setLogLevel, List.filterMap_cons]
      rw [hl]
    | page p =>
      rw [Log.run, ih]
      simp only [levelAfter, filterAfter, setPageFilter, List.filterMap_cons]
      rw [hl]

/-- C43 for histories: whatever was logged and set before, a message is printed according to the level
and the page filter that were set last. -/
theorem c43_history (l : Logger) (c : Str) (ss : List Step) (level : Level) (page : ℤ) (stamp text : Str) :
    (AtLeast level (levelAfter l ss) ∧ PagePasses (filterAfter l ss) page →
      ∃ pre, (Log.run l c (ss ++ [.message level page stamp text])).2 = (Log.run l c ss).2 ++ (stamp ++ pre ++ text)) ∧
    (¬ (AtLeast level (levelAfter l ss) ∧ PagePasses (filterAfter l ss) page) →
      (Log.run l c (ss ++ [.message level page stamp text])).2 = (Log.run l c ss).2) := by
  have h := c43_printed_iff (Log.run l c ss).1 (Log.run l c ss).2 level page stamp text
  rw [run_append]
  simp only [Log.run]
  rw [run_settings] at h
  rw [run_settings]
  exact h

/-- C43: raising the level never prints more: what is printed at the higher level is printed at the
lower level, too, in the same order. -/
theorem c43_monotone (lo hi : Level) (h : AtLeast hi lo) (filter : ℤ) (msgs : List (Level × ℤ × Str × Str)) :
    List.Sublist
      (Log.run ⟨hi, filter⟩ [] (msgs.map fun m => .message m.1 m.2.1 m.2.2.1 m.2.2.2)).2
      (Log.run ⟨lo, filter⟩ [] (msgs.map fun m => .message m.1 m.2.1 m.2.2.1 m.2.2.2)).2 := by
  suffices hgen : ∀ (msgs : List (Level × ℤ × Str × Str)) (c d : Str), List.Sublist c d →
      List.Sublist (Log.run ⟨hi, filter⟩ c (msgs.map fun m => .message m.1 m.2.1 m.2.2.1 m.2.2.2)).2
        (Log.run ⟨lo, filter⟩ d (msgs.map fun m => .message m.1 m.2.1 m.2.2.1 m.2.2.2)).2 by
    exact hgen msgs [] [] (List.Sublist.refl _)
  clear msgs
  intro msgs
  induction msgs with
  | nil => intro c d h; exact h
  | cons m ms ih =>
    intro c d hcd
    rw [List.map_cons, Log.run, Log.run]
    apply ih
    unfold log
    by_cases h1 : getostream ⟨hi, filter⟩ m.1 m.2.1 = true
    · have h2 : getostream ⟨lo, filter⟩ m.1 m.2.1 = true := by
        rw [getostream_iff] at h1 ⊢
        refine ⟨?_, h1.2⟩
        have := h1.1
        rw [atLeast_iff] at this h ⊢
        exact le_trans h this
      rw [if_pos h1, if_pos h2]
      exact hcd.append (List.Sublist.refl _)
    · rw [if_neg h1]
      split
      · exact hcd.trans (List.sublist_append_left _ _)
      · exact hcd

/-! ### C44 -/

theorem runAll_append {D : Type} (fs gs : List (D → Outcome D)) (d : D) :
    runAll (fs ++ gs) d = (runAll fs d).bind (runAll gs) := by
  induction fs generalizing d with
  | nil => rfl
  | cons f fs ih =>
    rw [List.cons_append, runAll, runAll]
    cases f d with
    | ok d' => exact ih d'
    | throw m => rfl
    | ub m => rfl

/-- The state `process` carries along: the document together with the timings. -/
def timed {D : Type} (E : Env D) (names : List Str) (ts : Option (List (Str × ℕ))) : Option (List (Str × ℕ)) :=
  names.foldl (fun ts name => ts.map fun l => l ++ [(name, E.duration l.length)]) ts

theorem timed_append {D : Type} (E : Env D) (a b : List Str) (ts : Option (List (Str × ℕ))) :
    timed E (a ++ b) ts = timed E b (timed E a ts) := by
  unfold timed; rw [List.foldl_append]

theorem timed_none {D : Type} (E : Env D) (a : List Str) : timed E a none = none := by
  unfold timed
  induction a with
  | nil => rfl
  | cons x xs ih => exact ih

theorem timed_some {D : Type} (E : Env D) (a : List Str) (l : List (Str × ℕ)) :
    ∃ l', timed E a (some l) = some l' ∧ l'.map (·.1) = l.map (·.1) ++ a := by
  unfold timed
  induction a generalizing l with
  | nil => exact ⟨l, rfl, by simp⟩
  | cons x xs ih =>
    obtain ⟨l', h1, h2⟩ := ih (l ++ [(x, E.duration l.length)])
    exact ⟨l', h1, by rw [h2]; simp⟩

theorem runStage_eq {D : Type} (E : Env D) (cfg : Config) (st : Stage) (d : D) (ts : Option (List (Str × ℕ))) :
    runStage E cfg st ⟨d, ts⟩ =
      (runAll (if (cfg.stage st).disabled = false then [E.stage st (cfg.stage st) cfg.roles] else []) d).bind fun d' =>
        .ok ⟨d', timed E (if (cfg.stage st).disabled = false then [st.timing] else []) ts⟩ := by
  unfold runStage
  by_cases h : (cfg.stage st).disabled = false
  · rw [if_pos h, if_pos h, if_pos h]
    simp only [runAll]
    cases E.stage st (cfg.stage st) cfg.roles d with
    | ok d' => rfl
    | throw m => rfl
    | ub m => rfl
  · rw [if_neg h, if_neg h, if_neg h]; rfl

/-- The rest `k` of a run performs the steps `fs` and records the timings `names`. -/
def Performs {D : Type} (E : Env D) (k : PState D → Outcome (ℤ × PState D)) (fs : List (D → Outcome D))
    (names : List Str) : Prop :=
  ∀ d ts, k ⟨d, ts⟩ = (runAll fs d).bind fun d' => .ok (0, ⟨d', timed E names ts⟩)

theorem performs_stage {D : Type} {E : Env D} (cfg : Config) {k : PState D → Outcome (ℤ × PState D)}
    {fs : List (D → Outcome D)} {names : List Str} (st : Stage) (h : Performs E k fs names) :
    Performs E (fun s => (runStage E cfg st s).bind k)
      ((if (cfg.stage st).disabled = false then [E.stage st (cfg.stage st) cfg.roles] else []) ++ fs)
      ((if (cfg.stage st).disabled = false then [st.timing] else []) ++ names) := by
  intro d ts
  simp only
  rw [runStage_eq, runAll_append, timed_append]
  cases runAll (if (cfg.stage st).disabled = false then [E.stage st (cfg.stage st) cfg.roles] else []) d with
  | ok d' => exact h d' _
  | throw m => rfl
  | ub m => rfl

theorem performs_lines {D : Type} {E : Env D} (cfg : Config) {k : PState D → Outcome (ℤ × PState D)}
    {fs : List (D → Outcome D)} {names : List Str} (h : Performs E k fs names) :
    Performs E (fun s => (runStage E cfg .lines s).bind fun s =>
        k (if (cfg.stage .lines).disabled = false then { s with doc := E.linesFromSegments s.doc } else s))
      ((if (cfg.stage .lines).disabled = false then
        [E.stage .lines (cfg.stage .lines) cfg.roles] ++ [fun d => .ok (E.linesFromSegments d)] else []) ++ fs)
      ((if (cfg.stage .lines).disabled = false then [Stage.lines.timing] else []) ++ names) := by
  intro d ts
  simp only
  rw [runStage_eq, runAll_append, timed_append]
  by_cases hd : (cfg.stage .lines).disabled = false
  · simp only [if_pos hd, List.singleton_append, runAll]
    cases E.stage .lines (cfg.stage .lines) cfg.roles d with
    | ok d' => exact h (E.linesFromSegments d') _
    | throw m => rfl
    | ub m => rfl
  · simp only [if_neg hd]
    exact h d _

/-- C44: after a successful load, `process` sends the document through parsing and the enabled stages,
each of them once, in the documented order, whatever they do; it stops at the first one that fails.
At the end the status is 0, and exactly one timing was added for loading, parsing and every enabled stage,
in this order (if timings are asked for). -/
theorem c44_stages {D : Type} (E : Env D) (cfg : Config) (d : D) (ts : Option (List (Str × ℕ)))
    (hl : E.loadError = none) :
    (∀ d', runAll (steps E cfg) d = .ok d' → ∃ ts', process E cfg ⟨d, ts⟩ = .ok (0, ⟨d', ts'⟩) ∧
      (ts = none → ts' = none) ∧
      ∀ l, ts = some l → ∃ l', ts' = some l' ∧ l'.map (·.1) = l.map (·.1) ++ timingNames cfg) ∧
    (∀ m, runAll (steps E cfg) d = .throw m → process E cfg ⟨d, ts⟩ = .throw m) ∧
    (∀ m, runAll (steps E cfg) d = .ub m → process E cfg ⟨d, ts⟩ = .ub m) := by
  have hfil : ∀ (st : Stage) (l : List Stage) {β : Type} (f : Stage → List β),
      ((st :: l).filter fun st => (cfg.stage st).disabled = false).flatMap f =
      (if (cfg.stage st).disabled = false then f st else []) ++
        (l.filter fun st => (cfg.stage st).disabled = false).flatMap f := by
    intro st l β f
    rw [List.filter_cons]
    by_cases h : (cfg.stage st).disabled = false
    · simp [h]
    · simp [h]
  have hnames : timingNames cfg = ["Load PDF".toList] ++ (["Parse PDF".toList] ++
      ((stageTable.map (·.1)).filter fun st => (cfg.stage st).disabled = false).flatMap fun st => [st.timing]) := by
    unfold timingNames
    rw [List.filter_map, ← List.map_eq_flatMap, List.map_map]
    show _ :: _ :: _ = _ :: _ :: _
    congr 2
    apply List.map_congr_left
    intro p hp
    have h := List.mem_of_mem_filter hp
    have hall : ∀ p ∈ stageTable, p.2.toList = p.1.timing := by decide +kernel
    exact hall p h
  have hmain : process E cfg ⟨d, ts⟩ = (runAll (steps E cfg) d).bind fun d' =>
      .ok (0, ⟨d', timed E (timingNames cfg) ts⟩) := by
    have h0 : Performs E (fun s => .ok (0, { s with doc := E.linesFromBlocks s.doc }))
        [fun d => .ok (E.linesFromBlocks d)] [] := fun d ts => rfl
    have h11 := performs_stage cfg .glyphStatistics <| performs_stage cfg .diacritics <|
      performs_stage cfg .words <| performs_stage cfg .wordStatistics <| performs_stage cfg .segmentation <|
      performs_lines cfg <| performs_stage cfg .scripts <| performs_stage cfg .lineStatistics <|
      performs_stage cfg .blocks <| performs_stage cfg .readingOrder <| performs_stage cfg .dehyphenation h0
    have hsteps : steps E cfg = [E.parse cfg.parsing cfg.skipFontFiles] ++ (
        (((stageTable.map (·.1)).filter fun st => (cfg.stage st).disabled = false).flatMap (fun st =>
          [E.stage st (cfg.stage st) cfg.roles] ++
            if st = .lines then [fun d => .ok (E.linesFromSegments d)] else []) ++
        [fun d => .ok (E.linesFromBlocks d)])) := by
      unfold steps; rw [List.append_assoc]
    have hst : stageTable.map (·.1) = [.glyphStatistics, .diacritics, .words, .wordStatistics, .segmentation,
      .lines, .scripts, .lineStatistics, .blocks, .readingOrder, .dehyphenation] := rfl
    rw [hsteps, hnames, hst]
    simp only [hfil]
    simp only [List.filter_nil, List.flatMap_nil, List.append_nil, List.append_assoc, reduceCtorEq, if_false, if_true]
    rw [runAll_append]
    unfold process
    rw [hl]
    simp only [PState.record, runAll]
    cases E.parse cfg.parsing cfg.skipFontFiles d with
    | throw m => rfl
    | ub m => rfl
    | ok d' =>
      have := h11 d' (timed E (["Load PDF".toList] ++ ["Parse PDF".toList]) ts)
      rw [← List.append_assoc, timed_append]
      simpa [timed, Outcome.bind] using this
  rw [hmain]
  refine ⟨?_, ?_, ?_⟩
  · intro d' h
    rw [h]
    refine ⟨_, rfl, ?_, ?_⟩
    · rintro rfl; exact timed_none E _
    · rintro l rfl; exact timed_some E _ l
  · intro m h; rw [h]; rfl
  · intro m h; rw [h]; rfl

/-- C44: if the file cannot be loaded, nothing else happens: the document is not touched, only the timing
of loading is recorded, and the error code is returned. -/
theorem c44_load_failure {D : Type} (E : Env D) (cfg : Config) (d : D) (ts : Option (List (Str × ℕ))) (code : ℤ)
    (hl : E.loadError = some code) :
    ∃ ts', process E cfg ⟨d, ts⟩ = .ok (code, ⟨d, ts'⟩) ∧ (ts = none → ts' = none) ∧
      ∀ l, ts = some l → ∃ l', ts' = some l' ∧ l'.map (·.1) = l.map (·.1) ++ ["Load PDF".toList] := by
  refine ⟨timed E ["Load PDF".toList] ts, ?_, ?_, ?_⟩
  · unfold process; rw [hl]; rfl
  · rintro rfl; exact timed_none E _
  · rintro l rfl; exact timed_some E _ l

/-! ### C45 -/

theorem parseArgs_ok {s : SerializersOrder} {g : Given} {a : Args} (h : parseArgs s g = .ok a) :
    validateOnce (validateFormat s) .txt g.format = .ok a.format ∧
    (∃ roles, validateAll validateRole g.role = .ok roles ∧ a.roles = if g.role = [] then getRoles else roles) ∧
    once ['-'] id g.outputFile = .ok a.outputFile ∧ once [] id g.visualizationPath = .ok a.visualizationPath ∧
    once "error".toList id g.verbosity = .ok a.verbosity ∧ once (-1) id g.logPageFilter = .ok a.logPageFilter ∧
    g.pdfFile = [a.pdfFile] ∧ a.skip = (fun st => g.flag (skipOption st)) ∧
    a.debug = (fun st => g.flag (debugOption st)) ∧ a.printHelp = g.flag "help" ∧
    a.printVersion = g.flag "version" ∧ a.printFullHelp = g.flag "full-help" ∧
    a.visualize = visualizeOptions.filter g.flag ∧ a.printRunningTimes = g.flag "print-running-times" ∧
    a.skipFontFiles = g.flag "skip-embedded-font-files-parsing" ∧
    a.skipRoles = g.flag "skip-semantic-roles-prediction" ∧ a.debugParsing = g.flag "debug-pdf-parsing" ∧
    a.debugRoles = g.flag "debug-semantic-roles-prediction" := by
  unfold parseArgs at h
  cases h1 : validateOnce (validateFormat s) .txt g.format with
  | throw m => rw [h1] at h; cases h
  | ub m => rw [h1] at h; cases h
  | ok f =>
  cases h2 : validateAll validateRole g.role with
  | throw m => rw [h1, h2] at h; cases h
  | ub m => rw [h1, h2] at h; cases h
  | ok roles =>
  cases h3 : validateAll validateType g.type with
  | throw m => rw [h1, h2, h3] at h; cases h
  | ub m => rw [h1, h2, h3] at h; cases h
  | ok types =>
  cases h4 : once ['-'] id g.outputFile with
  | throw m => rw [h1, h2, h3, h4] at h; cases h
  | ub m => rw [h1, h2, h3, h4] at h; cases h
  | ok out =>
  cases h5 : once [] id g.visualizationPath with
  | throw m => rw [h1, h2, h3, h4, h5] at h; cases h
  | ub m => rw [h1, h2, h3, h4, h5] at h; cases h
  | ok vis =>
  cases h6 : once "error".toList id g.verbosity with
  | throw m => rw [h1, h2, h3, h4, h5, h6] at h; cases h
  | ub m => rw [h1, h2, h3, h4, h5, h6] at h; cases h
  | ok verb =>
  cases h7 : once (-1) id g.logPageFilter with
  | throw m => rw [h1, h2, h3, h4, h5, h6, h7] at h; cases h
  | ub m => rw [h1, h2, h3, h4, h5, h6, h7] at h; cases h
  | ok filt =>
  rw [h1, h2, h3, h4, h5, h6, h7] at h
  simp only [Outcome.bind] at h
  cases hp : g.pdfFile with
  | nil => rw [hp] at h; cases h
  | cons p ps =>
    cases ps with
    | cons q qs => rw [hp] at h; cases h
    | nil =>
      rw [hp] at h
      simp only [Outcome.ok.injEq] at h
      subst h
      exact ⟨rfl, ⟨roles, rfl, rfl⟩, rfl, rfl, rfl, rfl, rfl, rfl, rfl, rfl, rfl, rfl, rfl, rfl, rfl, rfl, rfl, rfl⟩

/-- The documented names of the options that skip a stage. -/
def skipTable : List (Stage × String) :=
  [(.glyphStatistics, "skip-glyphs-statistics-calculation"), (.diacritics, "skip-diacritic-marks-merging"),
   (.words, "skip-words-detection"), (.wordStatistics, "skip-words-statistics-calculation"),
   (.segmentation, "skip-page-segmentation"), (.lines, "skip-text-lines-detection"),
   (.scripts, "skip-sub-super-scripts-detection"),
   (.lineStatistics, "skip-text-lines-statistics-calculation"), (.blocks, "skip-text-blocks-detection"),
   (.readingOrder, "skip-reading-order-detection"), (.dehyphenation, "skip-words-dehyphenation")]

/-- C45: a `--skip-...` option disables its own stage and no other one. -/
theorem c45_skip_options (s : SerializersOrder) (g : Given) (a : Args) (h : parseArgs s g = .ok a)
    (st : Stage) (name : String) (hm : (st, name) ∈ skipTable) :
    ((configOf a).stage st).disabled = true ↔ g.flag name = true := by
  obtain ⟨-, -, -, -, -, -, -, hs, -⟩ := parseArgs_ok h
  have : name = skipOption st := by
    have hall : ∀ p ∈ skipTable, p.2 = skipOption p.1 := by decide +kernel
    exact hall (st, name) hm
  rw [this]
  show a.skip st = true ↔ _
  rw [hs]

/-- C45: a skipped stage does not run: what it would do has no influence on the result of `process`. -/
theorem c45_skipped_stage_does_not_run {D : Type} (E E' : Env D) (cfg : Config) (st : Stage) (s : PState D)
    (hd : (cfg.stage st).disabled = true) (hE : ∀ st' ≠ st, E'.stage st' = E.stage st')
    (h1 : E'.loadError = E.loadError) (h2 : E'.parse = E.parse) (h3 : E'.linesFromSegments = E.linesFromSegments)
    (h4 : E'.linesFromBlocks = E.linesFromBlocks) (h5 : E'.duration = E.duration) :
    process E' cfg s = process E cfg s := by
  have hr : ∀ s : PState D, ∀ n, PState.record E' s n = PState.record E s n := by
    intro s n; unfold PState.record; rw [h5]
  have hs : ∀ st', runStage E' cfg st' = runStage E cfg st' := by
    intro st'
    funext s
    unfold runStage
    by_cases hst : st' = st
    · subst hst
      rw [if_neg (by rw [hd]; decide), if_neg (by rw [hd]; decide)]
    · rw [hE st' hst]
      simp only [hr]
  unfold process
  simp only [hs, hr, h1, h2, h3, h4]

/-- The options that only change variables which are never read. -/
def unusedOptions : List String := ["no-dehyphenation", "no-scripts", "control-characters", "semantic-roles"]

/-- Finding, C45 is violated: the documented options `--no-dehyphenation`, `--no-scripts`,
`--control-characters` and `--semantic-roles` have no effect: two command lines that differ only in
these options yield the same run, for every PDF file and every behaviour of the stages. -/
theorem c45_options_without_effect (os : Os) (engine : Config → Str → Engine) (clock : ℕ → ℕ) (s : SerializersOrder)
    (seen : Bool × Bool × Bool) (g : Given) (flag' : String → Bool)
    (h : ∀ name, name ∉ unusedOptions → flag' name = g.flag name) :
    Cli.main os engine clock s seen { g with flag := flag' } = Cli.main os engine clock s seen g := by
  have hf : ∀ n, n ∉ unusedOptions → flag' n = g.flag n := h
  have e1 := hf "help" (by decide)
  have e2 := hf "version" (by decide)
  have e3 := hf "full-help" (by decide)
  have e4 : visualizeOptions.filter flag' = visualizeOptions.filter g.flag := by
    apply List.filter_congr
    intro n hn
    apply hf
    revert hn; revert n
    decide +kernel
  have e5 : (fun st => flag' (skipOption st)) = fun st => g.flag (skipOption st) := by
    funext st; exact hf _ (by cases st <;> decide)
  have e6 : (fun st => flag' (debugOption st)) = fun st => g.flag (debugOption st) := by
    funext st; exact hf _ (by cases st <;> decide)
  have e7 := hf "skip-embedded-font-files-parsing" (by decide)
  have e8 := hf "skip-semantic-roles-prediction" (by decide)
  have e9 := hf "debug-pdf-parsing" (by decide)
  have e10 := hf "debug-semantic-roles-prediction" (by decide)
  have e11 := hf "print-running-times" (by decide)
  have hstore : storeOk s { g with flag := flag' } = storeOk s g := by
    unfold storeOk parseArgs
    cases validateOnce (validateFormat s) .txt g.format <;> [skip; rfl; rfl]
    cases validateAll validateRole g.role <;> [skip; rfl; rfl]
    cases validateAll validateType g.type <;> [skip; rfl; rfl]
    cases once ['-'] id g.outputFile <;> [skip; rfl; rfl]
    cases once [] id g.visualizationPath <;> [skip; rfl; rfl]
    cases once "error".toList id g.verbosity <;> [skip; rfl; rfl]
    cases once (-1) id g.logPageFilter <;> [skip; rfl; rfl]
    rfl
  unfold Cli.main
  rw [hstore]
  unfold parseArgs
  simp only [e1, e2, e3, e4, e5, e6, e7, e8, e9, e10, e11]
  cases validateOnce (validateFormat s) .txt g.format <;> [skip; rfl; rfl]
  cases validateAll validateRole g.role <;> [skip; rfl; rfl]
  cases validateAll validateType g.type <;> [skip; rfl; rfl]
  cases once ['-'] id g.outputFile <;> [skip; rfl; rfl]
  cases once [] id g.visualizationPath <;> [skip; rfl; rfl]
  cases once "error".toList id g.verbosity <;> [skip; rfl; rfl]
  cases once (-1) id g.logPageFilter <;> [skip; rfl; rfl]
  simp only [Outcome.bind]
  cases g.pdfFile with
  | nil => rfl
  | cons p ps => cases ps <;> rfl

/-- Finding, C45 is violated: `--skip-semantic-roles-prediction` has no effect: the flag is stored in the
configuration, but reading order detection (which calls the prediction) does not look at it. -/
theorem c45_skip_roles_without_effect {D : Type} (E : Env D) (cfg : Config) (s : PState D) (b : Bool)
    (hE : ∀ c r d b, E.stage .readingOrder c { r with disabled := b } d = E.stage .readingOrder c r d)
    (hE' : ∀ st, st ≠ .readingOrder → ∀ c r r' d, E.stage st c r d = E.stage st c r' d) :
    process E { cfg with roles := { cfg.roles with disabled := b } } s = process E cfg s := by
  have hs : ∀ st, runStage E { cfg with roles := { cfg.roles with disabled := b } } st = runStage E cfg st := by
    intro st
    funext s
    unfold runStage
    by_cases hst : st = .readingOrder
    · subst hst
      simp only [hE]
    · rw [show E.stage st = fun c _ d => E.stage st c cfg.roles d from by
        funext c r d; exact hE' st hst c r cfg.roles d]
  unfold process
  simp only [hs]

/-- The documented values of `--verbosity`. -/
def verbosityTable : List (String × Level) :=
  [("trace", .trace), ("TRACE", .trace), ("debug", .debug), ("DEBUG", .debug), ("info", .info), ("INFO", .info),
   ("warn", .warn), ("WARN", .warn), ("error", .error), ("ERROR", .error)]

/-- C45: `--verbosity` selects the level of its name for parsing and for all stages without a `--debug-...`
option; every other value silently means "error". -/
theorem c45_verbosity (s : SerializersOrder) (g : Given) (a : Args) (h : parseArgs s g = .ok a) (v : Str)
    (hv : g.verbosity = [v]) (st : Stage) (hdebug : g.flag (debugOption st) = false) :
    (∀ name level, (name, level) ∈ verbosityTable → v = name.toList → ((configOf a).stage st).logLevel = level) ∧
    ((∀ name level, (name, level) ∈ verbosityTable → v ≠ name.toList) →
      ((configOf a).stage st).logLevel = .error) := by
  obtain ⟨-, -, -, -, hverb, -, -, -, hdbg, -⟩ := parseArgs_ok h
  rw [hv] at hverb
  have hva : a.verbosity = v := by
    simpa [once] using hverb.symm
  have hl : ((configOf a).stage st).logLevel = logLevelOf v := by
    show (if a.debug st then Level.debug else logLevelOf a.verbosity) = _
    rw [hdbg, hva]
    simp [hdebug]
  rw [hl]
  constructor
  · intro name level hm hvn
    subst hvn
    have hall : ∀ p ∈ verbosityTable, logLevelOf p.1.toList = p.2 := by decide +kernel
    exact hall (name, level) hm
  · intro hno
    have hne : ∀ p ∈ verbosityTable, v ≠ p.1.toList := fun p hp => hno p.1 p.2 hp
    unfold logLevelOf
    simp only [verbosityTable, List.mem_cons, List.not_mem_nil, or_false, forall_eq_or_imp, forall_eq] at hne
    obtain ⟨n1, n2, n3, n4, n5, n6, n7, n8, -, -⟩ := hne
    rw [if_neg (not_or.mpr ⟨n7, n8⟩), if_neg (not_or.mpr ⟨n5, n6⟩), if_neg (not_or.mpr ⟨n3, n4⟩),
      if_neg (not_or.mpr ⟨n1, n2⟩)]

/-- The documented names of the options that show the debug messages of a stage. -/
def debugTable : List (Stage × String) :=
  [(.glyphStatistics, "debug-glyphs-statistics-calculation"), (.diacritics, "debug-diacritic-marks-merging"),
   (.words, "debug-words-detection"), (.wordStatistics, "debug-words-statistics-calculation"),
   (.segmentation, "debug-page-segmentation"), (.lines, "debug-text-lines-detection"),
   (.scripts, "debug-sub-super-scripts-detection"),
   (.lineStatistics, "debug-text-lines-statistics-calculation"), (.blocks, "debug-text-blocks-detection"),
   (.readingOrder, "debug-reading-order-detection"), (.dehyphenation, "debug-words-dehyphenation")]

/-- C45: the options for the parts of the run that are not stages, and the debug options: the parsing of embedded font
files, the prediction of roles, and the levels of all loggers are configured by their own options and no others. -/
theorem c45_other_options (s : SerializersOrder) (g : Given) (a : Args) (h : parseArgs s g = .ok a) :
    (configOf a).skipFontFiles = g.flag "skip-embedded-font-files-parsing" ∧
    (configOf a).roles.disabled = g.flag "skip-semantic-roles-prediction" ∧
    (g.flag "debug-pdf-parsing" = true → (configOf a).parsing.logLevel = .debug) ∧
    (g.flag "debug-semantic-roles-prediction" = true → (configOf a).roles.logLevel = .debug) ∧
    (∀ st name, (st, name) ∈ debugTable → g.flag name = true → ((configOf a).stage st).logLevel = .debug) ∧
    ∃ level : Level,
      (g.flag "debug-pdf-parsing" = false → (configOf a).parsing.logLevel = level) ∧
      (g.flag "debug-semantic-roles-prediction" = false → (configOf a).roles.logLevel = level) ∧
      (∀ st name, (st, name) ∈ debugTable → g.flag name = false → ((configOf a).stage st).logLevel = level) ∧
      (g.verbosity = [] → level = .error) ∧
      (∀ name l, (name, l) ∈ verbosityTable → g.verbosity = [name.toList] → level = l) := by
  obtain ⟨-, -, -, -, hverb, -, -, -, hdbg, -, -, -, -, -, h1, h2, h3, h4⟩ := parseArgs_ok h
  have hall : ∀ p ∈ debugTable, p.2 = debugOption p.1 := by decide +kernel
  refine ⟨h1, h2, ?_, ?_, ?_, logLevelOf a.verbosity, ?_, ?_, ?_, ?_, ?_⟩
  · intro hf
    show (if a.debugParsing then Level.debug else logLevelOf a.verbosity) = _
    rw [h3, if_pos hf]
  · intro hf
    show (if a.debugRoles then Level.debug else logLevelOf a.verbosity) = _
    rw [h4, if_pos hf]
  · intro st name hm hf
    show (if a.debug st then Level.debug else logLevelOf a.verbosity) = _
    have : name = debugOption st := hall (st, name) hm
    rw [hdbg]
    simp [← this, hf]
  · intro hf
    show (if a.debugParsing then Level.debug else logLevelOf a.verbosity) = _
    rw [h3, hf]; rfl
  · intro hf
    show (if a.debugRoles then Level.debug else logLevelOf a.verbosity) = _
    rw [h4, hf]; rfl
  · intro st name hm hf
    show (if a.debug st then Level.debug else logLevelOf a.verbosity) = _
    have : name = debugOption st := hall (st, name) hm
    rw [hdbg]
    simp [← this, hf]
  · intro hv
    rw [hv] at hverb
    have : a.verbosity = "error".toList := by simpa [once] using hverb.symm
    rw [this]; decide +kernel
  · intro name l hm hv
    rw [hv] at hverb
    have : a.verbosity = name.toList := by simpa [once] using hverb.symm
    rw [this]
    have hall : ∀ p ∈ verbosityTable, logLevelOf p.1.toList = p.2 := by decide +kernel
    exact hall (name, l) hm

/-- Finding: a `--debug-...` option replaces the level: together with `--verbosity trace` it hides the
messages of level trace of this stage instead of showing more. -/
theorem c45_debug_hides_trace (s : SerializersOrder) (g : Given) (a : Args) (h : parseArgs s g = .ok a) (st : Stage)
    (hdebug : g.flag (debugOption st) = true) (page : ℤ) :
    ((configOf a).stage st).logLevel = .debug ∧
    getostream ⟨((configOf a).stage st).logLevel, ((configOf a).stage st).logPageFilter⟩ .trace page = false := by
  obtain ⟨-, -, -, -, -, -, -, -, hdbg, -⟩ := parseArgs_ok h
  have hl : ((configOf a).stage st).logLevel = .debug := by
    show (if a.debug st then Level.debug else logLevelOf a.verbosity) = _
    rw [hdbg]; simp [hdebug]
  refine ⟨hl, ?_⟩
  rw [hl]; rfl

/-- C45: the page filter arrives at the loggers unchanged (it is stored as an unsigned number in
between). -/
theorem c45_page_filter (s : SerializersOrder) (g : Given) (a : Args) (h : parseArgs s g = .ok a) (n : ℤ)
    (hn : g.logPageFilter = [n]) (h1 : -2 ^ 31 ≤ n) (h2 : n < 2 ^ 31) (st : Stage) :
    ((configOf a).stage st).logPageFilter = n ∧ (configOf a).parsing.logPageFilter = n := by
  obtain ⟨-, -, -, -, -, hf, -⟩ := parseArgs_ok h
  rw [hn] at hf
  have hfa : a.logPageFilter = n := by simpa [once] using hf.symm
  have : pageFilterOf n = n := by
    unfold pageFilterOf
    rw [Int.bmod_def]
    norm_num at h1 h2 ⊢
    split <;> omega
  exact ⟨by show pageFilterOf a.logPageFilter = n; rw [hfa, this],
    by show pageFilterOf a.logPageFilter = n; rw [hfa, this]⟩

theorem not_mem_ite (c : Prop) [Decidable c] (w : Write) (x : Action) (hx : Action.write w ≠ x) :
    Action.write w ∉ (if c then [x] else []) := by
  split
  · rw [List.mem_singleton]; exact hx
  · exact List.not_mem_nil

/-- C45: what a successful run prints: the text of the document in the chosen format, restricted to the
chosen roles (all roles if none is given), to the chosen place (standard output if none is given). -/
theorem c45_output (os : Os) (engine : Config → Str → Engine) (clock : ℕ → ℕ) (s : SerializersOrder)
    (seen : Bool × Bool × Bool) (g : Given) (a : Args) (h : parseArgs s g = .ok a) (status : ℤ) (doc : SDoc)
    (ts : List (Str × ℕ)) (hnohelp : g.flag "help" = false ∧ g.flag "version" = false ∧ g.flag "full-help" = false)
    (he : engine (configOf a) a.pdfFile = .finished status doc ts) (hst : status ≤ 0) :
    ∃ text roles rest,
      (g.role = [] ∧ roles = getRoles ∨ g.role ≠ [] ∧ validateAll validateRole g.role = .ok roles) ∧
      ((g.format = [] ∨ g.format = ["txt".toList]) ∧ text = plainText roles doc ∨
        g.format = ["txt-extended".toList] ∧ text = plainTextExtended roles doc) ∧
      (Cli.main os engine clock s seen g).exit = some 0 ∧
      (Cli.main os engine clock s seen g).actions = (writeOutput os text a.outputFile).map .write ++ rest ∧
      (∀ w, Action.write w ∉ rest) ∧ (g.outputFile = [] → a.outputFile = ['-']) ∧ (∀ p, g.outputFile = [p] → a.outputFile = p) := by
  obtain ⟨hfmt, ⟨roles, hroles, harole⟩, hout, -, -, -, -, -, -, hh, hv, hfh, -⟩ := parseArgs_ok h
  have hmain : Cli.main os engine clock s seen g = mainAfterParsing os engine clock a := by
    unfold Cli.main; rw [h]
  rw [hmain]
  unfold mainAfterParsing
  rw [hh, hv, hfh, hnohelp.1, hnohelp.2.1, hnohelp.2.2]
  simp only [Bool.false_eq_true, if_false, he]
  rw [if_neg (by omega)]
  have hro : g.role = [] ∧ a.roles = getRoles ∨ g.role ≠ [] ∧ validateAll validateRole g.role = .ok a.roles := by
    by_cases hr : g.role = []
    · left; exact ⟨hr, by rw [harole, if_pos hr]⟩
    · right; exact ⟨hr, by rw [harole, if_neg hr, hroles]⟩
  have ho1 : g.outputFile = [] → a.outputFile = ['-'] := by
    intro ho; rw [ho] at hout; simpa [once] using hout.symm
  have ho2 : ∀ p, g.outputFile = [p] → a.outputFile = p := by
    intro p ho; rw [ho] at hout; simpa [once] using hout.symm
  have hf : (g.format = [] ∨ g.format = ["txt".toList]) ∧ a.format = .txt ∨
      g.format = ["txt-extended".toList] ∧ a.format = .txtExtended := by
    cases hgf : g.format with
    | nil => rw [hgf] at hfmt; left; exact ⟨Or.inl rfl, by simpa [validateOnce] using hfmt.symm⟩
    | cons x xs =>
      cases xs with
      | cons y ys => rw [hgf] at hfmt; cases hfmt
      | nil =>
        rw [hgf] at hfmt
        obtain ⟨name, hm, hx⟩ := ((c42_format s x).1 a.format).mp hfmt
        simp only [formatTable, List.mem_cons, Prod.mk.injEq, List.not_mem_nil, or_false] at hm
        rcases hm with ⟨rfl, hf⟩ | ⟨rfl, hf⟩
        · left; exact ⟨Or.inr (by rw [hx]), hf⟩
        · right; exact ⟨by rw [hx], hf⟩
  generalize hvis : (if a.visualizationPath ≠ [] then [Action.visualize a.visualize a.visualizationPath] else []) = vis
  generalize htm : (if a.printRunningTimes = true then
    [Action.times (if a.visualizationPath ≠ [] then
      ts ++ [("Serialize".toList, clock 0)] ++ [("Visualize".toList, clock 1)]
      else ts ++ [("Serialize".toList, clock 0)])] else []) = tm
  have hrest : ∀ w, Action.write w ∉ vis ++ tm := by
    intro w
    rw [← hvis, ← htm, List.mem_append, not_or]
    constructor
    · exact not_mem_ite _ w _ (fun h => by cases h)
    · exact not_mem_ite _ w _ (fun h => by cases h)
  rcases hf with ⟨hg, hf⟩ | ⟨hg, hf⟩
  · refine ⟨plainText a.roles doc, a.roles, vis ++ tm, hro, Or.inl ⟨hg, rfl⟩, rfl, ?_, hrest, ho1, ho2⟩
    rw [hf]
    simp only [runSerializer]
    rw [List.append_assoc]
  · refine ⟨plainTextExtended a.roles doc, a.roles, vis ++ tm, hro, Or.inr ⟨hg, rfl⟩, rfl, ?_, hrest, ho1, ho2⟩
    rw [hf]
    simp only [runSerializer]
    rw [List.append_assoc]

/-- C45: exit codes and errors: a failed load is reported by its (positive) status and writes nothing;
an `invalid_argument` exception gives 3; a wrong command line gives 1 and runs nothing. -/
theorem c45_exit_codes (os : Os) (engine : Config → Str → Engine) (clock : ℕ → ℕ) (s : SerializersOrder)
    (seen : Bool × Bool × Bool) (g : Given)
    (hnohelp : g.flag "help" = false ∧ g.flag "version" = false ∧ g.flag "full-help" = false) :
    (∀ a status doc ts, parseArgs s g = .ok a → engine (configOf a) a.pdfFile = .finished status doc ts → 0 < status →
      Cli.main os engine clock s seen g = ⟨[], some status⟩) ∧
    (∀ a, parseArgs s g = .ok a → engine (configOf a) a.pdfFile = .invalidArgument →
      Cli.main os engine clock s seen g = ⟨[.error], some 3⟩) ∧
    (∀ m, parseArgs s g = .throw m → (storeOk s g = true ∨ seen = (false, false, false)) →
      Cli.main os engine clock s seen g = ⟨[.usageError], some 1⟩) := by
  refine ⟨?_, ?_, ?_⟩
  · intro a status doc ts h he hst
    obtain ⟨-, -, -, -, -, -, -, -, -, hh, hv, hfh, -⟩ := parseArgs_ok h
    unfold Cli.main
    rw [h]
    simp only [mainAfterParsing]
    rw [hh, hv, hfh, hnohelp.1, hnohelp.2.1, hnohelp.2.2]
    simp [he, hst]
  · intro a h he
    obtain ⟨-, -, -, -, -, -, -, -, -, hh, hv, hfh, -⟩ := parseArgs_ok h
    unfold Cli.main
    rw [h]
    simp only [mainAfterParsing]
    rw [hh, hv, hfh, hnohelp.1, hnohelp.2.1, hnohelp.2.2]
    simp [he]
  · intro m h hs
    unfold Cli.main
    rw [h]
    simp only
    rcases hs with hs | hs
    · rw [hs]; simp [hnohelp]
    · rw [hs]
      cases storeOk s g <;> simp [hnohelp]

/-- C45: `--help` prints the help and ends the program successfully without touching a PDF file, with or
without the name of a file. -/
theorem c45_help (os : Os) (engine : Config → Str → Engine) (clock : ℕ → ℕ) (s : SerializersOrder)
    (seen : Bool × Bool × Bool) (g : Given) (hh : g.flag "help" = true) (hf : g.flag "full-help" = false)
    (hs : storeOk s g = true) : Cli.main os engine clock s seen g = ⟨[.help], some 0⟩ := by
  unfold Cli.main
  cases h : parseArgs s g with
  | ok a =>
    obtain ⟨-, -, -, -, -, -, -, -, -, ha, -, hfh, -⟩ := parseArgs_ok h
    simp [mainAfterParsing, hfh, hf, ha, hh]
  | throw m => simp [hs, hf, hh]
  | ub m => simp [hs, hf, hh]

/-- C45: more than one PDF file is a wrong command line: no file is read and the exit code is 1, even if
`--help` is given too (unless it was stored before the error). -/
theorem c45_two_files (os : Os) (engine : Config → Str → Engine) (clock : ℕ → ℕ) (s : SerializersOrder)
    (g : Given) (h2 : 2 ≤ g.pdfFile.length) :
    Cli.main os engine clock s (false, false, false) g = ⟨[.usageError], some 1⟩ := by
  have hs : storeOk s g = false := by
    unfold storeOk
    rw [decide_eq_false (by omega), Bool.and_false]
  unfold Cli.main
  cases h : parseArgs s g with
  | ok a =>
    obtain ⟨-, -, -, -, -, -, hp, -⟩ := parseArgs_ok h
    rw [hp] at h2
    simp at h2
  | throw m => simp [hs]
  | ub m => simp [hs]

example : 2 ≤ ({ pdfFile := ["a.pdf".toList, "b.pdf".toList], flag := fun n => decide (n = "help") } : Given).pdfFile.length := by
  decide +kernel

/-! ### C60 -/

theorem parentDir_spec (path : Str) :
    ('/' ∈ path → ∃ name, path = parentDir path ++ ['/'] ++ name ∧ '/' ∉ name) ∧
    ('/' ∉ path → parentDir path = ['.']) := by
  unfold parentDir
  have hsplit := List.takeWhile_append_dropWhile (p := fun c => decide (c ≠ '/')) (l := path.reverse)
  have hno : '/' ∉ (path.reverse.takeWhile fun c => decide (c ≠ '/')) := by
    intro hm
    have hall := List.all_takeWhile (p := fun c => decide (c ≠ '/')) (l := path.reverse)
    have := List.all_eq_true.mp hall _ hm
    simp at this
  cases hd : path.reverse.dropWhile (fun c => decide (c ≠ '/')) with
  | nil =>
    refine ⟨?_, fun _ => rfl⟩
    intro hm
    rw [hd, List.append_nil] at hsplit
    rw [hsplit] at hno
    exact absurd (List.mem_reverse.mpr hm) hno
  | cons c rest =>
    have hc : c = '/' := by
      have := List.head?_dropWhile_not (fun c => decide (c ≠ '/')) path.reverse
      rw [hd] at this
      simpa using this
    refine ⟨?_, ?_⟩
    · intro _
      refine ⟨(path.reverse.takeWhile fun c => decide (c ≠ '/')).reverse, ?_, by simpa using hno⟩
      rw [hd] at hsplit
      have := congrArg List.reverse hsplit
      rw [List.reverse_reverse, List.reverse_append, List.reverse_cons, hc] at this
      simpa using this.symm
    · intro h
      exfalso
      apply h
      rw [← List.mem_reverse, ← hsplit, hd, hc]
      simp

/-- C60: the text is written exactly to the requested place: to standard output for "-", and otherwise to the
file, if its directory can be created and the file can be opened; otherwise a message on standard
error says so. -/
theorem c60_destination (os : Os) (text path : Str) :
    (path = ['-'] → writeOutput os text path = [.stdout text]) ∧
    (path ≠ ['-'] → os.fails ("mkdir -p ".toList ++ parentDir path) = false → os.opens path = true →
      writeOutput os text path = [.shell ("mkdir -p ".toList ++ parentDir path), .file path text]) ∧
    (path ≠ ['-'] → (os.fails ("mkdir -p ".toList ++ parentDir path) = true ∨ os.opens path = false) →
      ∃ msg, msg ≠ [] ∧ writeOutput os text path =
        [.shell ("mkdir -p ".toList ++ parentDir path), .stderr msg]) ∧
    ('/' ∈ path → ∃ name, path = parentDir path ++ ['/'] ++ name ∧ '/' ∉ name) ∧
    ('/' ∉ path → parentDir path = ['.']) := by
  have hdash : (path.length = 1 ∧ path[0]? = some '-') ↔ path = ['-'] := by
    constructor
    · rintro ⟨h1, h2⟩
      match path, h1 with
      | [c], _ => simpa using h2
    · rintro rfl; decide
  refine ⟨?_, ?_, ?_, parentDir_spec path⟩
  · intro h
    unfold writeOutput
    rw [if_pos (hdash.mpr h)]
  · intro h h1 h2
    unfold writeOutput
    rw [if_neg (fun h' => h (hdash.mp h'))]
    simp only [h1, h2, Bool.false_eq_true, if_false, Bool.not_true]
  · intro h h1
    unfold writeOutput
    rw [if_neg (fun h' => h (hdash.mp h'))]
    simp only
    by_cases hf : os.fails ("mkdir -p ".toList ++ parentDir path) = true
    · rw [if_pos hf]
      exact ⟨_, by simp, rfl⟩
    · rw [if_neg hf]
      have ho : os.opens path = false := by
        rcases h1 with h1 | h1
        · exact absurd h1 hf
        · exact h1
      rw [ho]
      exact ⟨_, by simp, rfl⟩

/-- Finding, C60 is violated: if the output cannot be written, the run ends with exit code 0 all the same. -/
theorem c60_failure_exits_with_success (os : Os) (engine : Config → Str → Engine) (clock : ℕ → ℕ) (s : SerializersOrder)
    (seen : Bool × Bool × Bool) (g : Given) (a : Args) (h : parseArgs s g = .ok a) (status : ℤ) (doc : SDoc)
    (ts : List (Str × ℕ)) (hnohelp : g.flag "help" = false ∧ g.flag "version" = false ∧ g.flag "full-help" = false)
    (he : engine (configOf a) a.pdfFile = .finished status doc ts) (hst : status ≤ 0)
    (hp : a.outputFile ≠ ['-']) (hfail : os.opens a.outputFile = false) :
    (Cli.main os engine clock s seen g).exit = some 0 ∧
      ∀ p t, Action.write (.file p t) ∉ (Cli.main os engine clock s seen g).actions := by
  obtain ⟨text, roles, rest, -, -, h1, -⟩ := c45_output os engine clock s seen g a h status doc ts hnohelp he hst
  refine ⟨h1, ?_⟩
  obtain ⟨-, -, -, -, -, -, -, -, -, hh, hv, hfh, -⟩ := parseArgs_ok h
  intro p t
  unfold Cli.main
  rw [h]
  simp only [mainAfterParsing]
  rw [hh, hv, hfh, hnohelp.1, hnohelp.2.1, hnohelp.2.2]
  simp only [Bool.false_eq_true, if_false, he]
  rw [if_neg (by omega)]
  have hw : ∀ text, Action.write (.file p t) ∉ (writeOutput os text a.outputFile).map Action.write := by
    intro text
    obtain ⟨msg, -, hm⟩ := (c60_destination os text a.outputFile).2.2.1 hp (Or.inr hfail)
    rw [hm]; simp
  simp only [List.mem_append, not_or]
  refine ⟨⟨?_, ?_⟩, ?_⟩
  · cases runSerializer a.format a.roles doc with
    | none => simp
    | some text => exact hw text
  · exact not_mem_ite _ _ _ (fun h => by cases h)
  · exact not_mem_ite _ _ _ (fun h => by cases h)

/-- Finding: for a file directly in the root directory the program calls `mkdir -p` without a directory (which
fails), so the file is never written. -/
theorem c60_root_directory (name : Str) (h : '/' ∉ name) : parentDir ('/' :: name) = [] := by
  obtain ⟨n, h1, h2⟩ := (parentDir_spec ('/' :: name)).1 (by simp)
  cases hp : parentDir ('/' :: name) with
  | nil => rfl
  | cons c cs =>
    rw [hp] at h1
    simp only [List.cons_append, List.cons.injEq, List.append_assoc] at h1
    exact absurd (by rw [h1.2]; simp) h

/-- Finding: the path is passed to the shell as it is, so that a path with shell syntax runs other
commands: everything in front of the last slash is part of the command, whatever it is. -/
theorem c60_shell_injection (os : Os) (text cmd name : Str) (h : '/' ∉ name) :
    Write.shell ("mkdir -p x;".toList ++ cmd) ∈ writeOutput os text ("x;".toList ++ cmd ++ ['/'] ++ name) := by
  have hne : ("x;".toList ++ cmd ++ ['/'] ++ name) ≠ ['-'] := by
    intro hc
    have := congrArg List.length hc
    simp at this
  have hpd : parentDir ("x;".toList ++ cmd ++ ['/'] ++ name) = "x;".toList ++ cmd := by
    obtain ⟨n, h1, h2⟩ := (parentDir_spec ("x;".toList ++ cmd ++ ['/'] ++ name)).1 (by simp)
    generalize parentDir ("x;".toList ++ cmd ++ ['/'] ++ name) = pd at h1 ⊢
    rw [List.append_assoc, List.append_assoc _ _ n] at h1
    have hnn : name = n ∧ "x;".toList ++ cmd = pd := by
      have hlast : ∀ (a b n m : Str), '/' ∉ n → '/' ∉ m → a ++ (['/'] ++ n) = b ++ (['/'] ++ m) → n = m ∧ a = b := by
        intro a b n m hn hm he
        rcases List.append_eq_append_iff.mp he with ⟨c, h1, h2⟩ | ⟨c, h1, h2⟩
        · cases c with
          | nil => simp at h1 h2; exact ⟨h2, h1.symm⟩
          | cons x xs =>
            simp only [List.cons_append, List.nil_append, List.cons.injEq] at h2
            exact absurd (by rw [h2.2]; simp) hn
        · cases c with
          | nil => simp at h1 h2; exact ⟨h2.symm, h1⟩
          | cons x xs =>
            simp only [List.cons_append, List.nil_append, List.cons.injEq] at h2
            exact absurd (by rw [h2.2]; simp) hm
      exact hlast _ _ _ _ h h2 h1
    exact hnn.2.symm
  have hcmd : "mkdir -p x;".toList ++ cmd = "mkdir -p ".toList ++ parentDir ("x;".toList ++ cmd ++ ['/'] ++ name) := by
    rw [hpd, ← List.append_assoc]; rfl
  rw [hcmd]
  generalize "x;".toList ++ cmd ++ ['/'] ++ name = path at hne
  cases hf : os.fails ("mkdir -p ".toList ++ parentDir path) with
  | true =>
    obtain ⟨msg, -, hm⟩ := (c60_destination os text path).2.2.1 hne (Or.inl hf)
    rw [hm]; simp
  | false =>
    cases ho : os.opens path with
    | true => rw [(c60_destination os text path).2.1 hne hf ho]; simp
    | false =>
      obtain ⟨msg, -, hm⟩ := (c60_destination os text path).2.2.1 hne (Or.inr ho)
      rw [hm]; simp

/-! ### Examples -/

/-- An order of the serializers. -/
def someOrder : SerializersOrder := ⟨[.txtExtended, .txt], by decide⟩

/-- "author-info" selects its role, "author" is rejected. -/
example : validateRole "author-info".toList = .ok .authorInfo ∧ (validateRole "author".toList).isThrow = true := by
  decide +kernel

/-- A level that is at least as severe as another one. -/
example : AtLeast .warn .info ∧ ¬ AtLeast .info .warn := by
  unfold AtLeast; decide +kernel

/-- A command line for examples. -/
def someArgs : Given :=
  { pdfFile := ["a.pdf".toList]
    format := ["txt".toList]
    role := ["title".toList, "abstract".toList]
    flag := fun n => decide (n = "no-dehyphenation") }

/-- A command line that is accepted. -/
example : ∃ a, parseArgs someOrder someArgs = .ok a ∧
    a.roles = [.title, .abstract] ∧ a.noDehyphenation = true := by
  refine ⟨_, rfl, ?_, ?_⟩ <;> decide +kernel

/-- A command line without file, but with `--help`. -/
example : storeOk someOrder { pdfFile := [], flag := fun n => decide (n = "help") } = true := by decide +kernel

/-- An environment in which the stages append their names and loading succeeds. -/
def someEnv : Env (List String) :=
  { loadError := none
    parse := fun _ _ d => .ok (d ++ ["parse"])
    stage := fun st _ _ d => .ok (d ++ [String.ofList st.timing])
    linesFromSegments := id
    linesFromBlocks := id
    duration := fun _ => 1 }

example : (runAll (steps someEnv
    { stage := fun st => { disabled := decide (st ∉ [Stage.words, .blocks]) } }) []) =
      .ok ["parse", "Detect words", "Detect text blocks"] := by decide +kernel

/-- The directory of a path. -/
example : parentDir "out/text/a.txt".toList = "out/text".toList ∧ parentDir "a.txt".toList = ".".toList ∧
    parentDir "/a.txt".toList = [] := by decide +kernel

end Verif.Props
