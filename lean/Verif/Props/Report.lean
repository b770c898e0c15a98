import Verif.Model.Report
import Verif.Props.Cli
import Verif.Lemmas.Math

/-!
# C88: the report of the running times
-/

namespace Verif.Props

open Verif.Math Verif.Cli Verif.Serialize Verif.Log Verif.Spec
open Verif.Text (Str)
open Verif.ReadingOrder (Role)

theorem rp_total (ts : List (Str × ℕ)) : timeTotal ts = (ts.map (·.2)).sum := by
  induction ts with
  | nil => rfl
  | cons t ts ih => simp [timeTotal, ih]

theorem rp_le_total {ts : List (Str × ℕ)} {t : Str × ℕ} (h : t ∈ ts) : t.2 ≤ timeTotal ts := by
  induction ts with
  | nil => cases h
  | cons x xs ih =>
    rcases List.mem_cons.mp h with rfl | h
    · exact Nat.le_add_right _ _
    · exact le_trans (ih h) (Nat.le_add_left _ _)

/-! ### The numbers -/

theorem rp_percent (total ms : ℕ) (ht : 0 < total) :
    ∃ p, percentOf total ms = some p ∧ |p - 100 * ms / total| ≤ 1 / 20 ∧ (∃ k : ℤ, p = k / 10) := by
  refine ⟨_, by rw [percentOf, if_neg (by omega)], ?_, ?_⟩
  · rw [roundTo_eq]
    have h := stdRound_close ((ms : ℚ) / total * 100 * 10 ^ 1)
    rw [abs_le] at h ⊢
    have he : (100 * ms / total : ℚ) = (ms : ℚ) / total * 100 := by ring
    rw [he]
    generalize (ms : ℚ) / total * 100 = x at h ⊢
    generalize (stdRound (x * 10 ^ 1) : ℚ) = y at h ⊢
    norm_num at h ⊢
    constructor <;> linarith [h.1, h.2]
  · rw [roundTo_eq]
    exact ⟨_, by norm_num; rfl⟩

/-- C88: each step's percentage is its share of the total time, to one decimal: the number printed is a multiple of 0.1, lies between 0 and
100, and differs from the true share by at most 0.05 (as long as the total is not 0). -/
theorem c88_percent (ts : List (Str × ℕ)) (t : Str × ℕ) (hm : t ∈ ts) (ht : 0 < (ts.map (·.2)).sum) :
    ∃ p, percentOf (timeTotal ts) t.2 = some p ∧ |p - 100 * t.2 / ((ts.map (·.2)).sum : ℕ)| ≤ 1 / 20 ∧ (∃ k : ℤ, p = k / 10) ∧
      0 ≤ p ∧ p ≤ 100 := by
  have hle := rp_le_total hm
  rw [rp_total] at hle ⊢
  generalize (ts.map (·.2)).sum = total at ht hle ⊢
  obtain ⟨p, h1, h2, k, hk⟩ := rp_percent total t.2 ht
  refine ⟨p, h1, h2, ⟨k, hk⟩, ?_, ?_⟩
  · rw [abs_le] at h2
    have h0 : (0 : ℚ) ≤ 100 * t.2 / total := by positivity
    rw [hk] at h2 ⊢
    have : (-1 : ℚ) < k := by linarith [h2.1]
    have : (-1 : ℤ) < k := by exact_mod_cast this
    have : (0 : ℤ) ≤ k := by omega
    have : (0 : ℚ) ≤ k := by exact_mod_cast this
    positivity
  · rw [abs_le] at h2
    have h0 : (100 * t.2 / total : ℚ) ≤ 100 := by
      rw [div_le_iff₀ (by exact_mod_cast ht)]
      have : (t.2 : ℚ) ≤ total := by exact_mod_cast hle
      linarith
    rw [hk] at h2 ⊢
    have : (k : ℚ) < 1001 := by linarith [h2.2]
    have : k < 1001 := by exact_mod_cast this
    have : k ≤ 1000 := by omega
    have : (k : ℚ) ≤ 1000 := by exact_mod_cast this
    linarith

/-- C88: the percentages add up to 100, up to 0.05 per step. -/
theorem c88_sum (ts : List (Str × ℕ)) (ht : 0 < (ts.map (·.2)).sum) :
    |(ts.map fun t => (percentOf (timeTotal ts) t.2).getD 0).sum - 100| ≤ ts.length / 20 := by
  rw [rp_total]
  generalize htot : (ts.map (·.2)).sum = total at ht ⊢
  have hgen : ∀ l : List (Str × ℕ),
      |(l.map fun t => (percentOf total t.2).getD 0).sum - 100 * ((l.map (·.2)).sum : ℕ) / total| ≤ l.length / 20 := by
    intro l
    induction l with
    | nil => simp
    | cons x xs ih =>
      obtain ⟨p, h1, h2, -⟩ := rp_percent total x.2 ht
      simp only [List.map_cons, List.sum_cons, h1, Option.getD_some, List.length_cons]
      push_cast
      have e : (100 * ((x.2 : ℚ) + ((xs.map (·.2)).sum : ℕ)) / total : ℚ) =
          100 * x.2 / total + 100 * ((xs.map (·.2)).sum : ℕ) / total := by ring
      rw [e]
      generalize (100 * (x.2 : ℚ) / total) = u at h2 ⊢
      rw [abs_le] at h2 ih ⊢
      constructor <;> linarith [h2.1, h2.2, ih.1, ih.2]
  have h := hgen ts
  rw [htot] at h
  have hne : (total : ℚ) ≠ 0 := by exact_mod_cast (by omega : total ≠ 0)
  rwa [mul_div_assoc, div_self hne, mul_one] at h

/-- The premises hold, and rounding can indeed make the sum differ from 100. -/
example : 0 < ([("a".toList, 1), ("b".toList, 1), ("c".toList, 1)].map (·.2)).sum ∧
    (([("a".toList, 1), ("b".toList, 1), ("c".toList, 1)] : List (Str × ℕ)).map fun t => (percentOf 3 t.2).getD 0).sum = 999 / 10 := by
  decide +kernel

/-- Finding: a fast run has no percentages: if every step took less than a millisecond, all durations are 0, the division is 0 / 0, and every line
of the report shows "nan". -/
theorem c88_percent_refuted (F : NumberFormat) (ts : List (Str × ℕ)) (h : ∀ t ∈ ts, t.2 = 0) :
    ∀ t ∈ ts, percentOf (timeTotal ts) t.2 = none ∧
      ∃ front, timingLine F (timeTotal ts) t = front ++ ['('] ++ F.nan ++ ['%', ')', '\n'] := by
  have h0 : timeTotal ts = 0 := by
    rw [rp_total]
    apply List.sum_eq_zero
    intro x hx
    obtain ⟨t, ht, rfl⟩ := List.mem_map.mp hx
    exact h t ht
  intro t _
  rw [h0]
  refine ⟨rfl, padLeftAligned 25 ([' ', '*', ' '] ++ t.1 ++ [':']) ++ padRightAligned 4 (F.int t.2) ++ " ms ".toList, ?_⟩
  show _ ++ _ ++ _ ++ ['('] ++ F.nan ++ ['%', ')'] ++ ['\n'] = _
  simp only [List.append_assoc, List.cons_append, List.nil_append]

example : ∀ t ∈ [("Load PDF".toList, 0), ("Parse PDF".toList, 0)], t.2 = 0 := by decide +kernel

/-! ### The text -/

/-- The number printed for the percentage. -/
def shownPercent (F : NumberFormat) (total ms : ℕ) : Str := ((percentOf total ms).map F.tenths).getD F.nan

theorem rp_timingLine (F : NumberFormat) (total : ℕ) (t : Str × ℕ) : timingLine F total t =
    padLeftAligned 25 ([' ', '*', ' '] ++ t.1 ++ [':']) ++ padRightAligned 4 (F.int t.2) ++ [' ', 'm', 's', ' '] ++ ['('] ++
      shownPercent F total t.2 ++ ['%', ')'] ++ ['\n'] := by
  unfold timingLine shownPercent
  cases percentOf total t.2 <;> rfl

theorem rp_line (F : NumberFormat) (total : ℕ) (t : Str × ℕ) : ∃ k, timingLine F total t =
    " * ".toList ++ t.1 ++ ":".toList ++ List.replicate k ' ' ++ F.int t.2 ++ " ms (".toList ++ shownPercent F total t.2 ++ "%)".toList ++ ['\n'] := by
  refine ⟨(25 - ([' ', '*', ' '] ++ t.1 ++ [':']).length) + (4 - (F.int t.2).length), ?_⟩
  rw [rp_timingLine]
  unfold padLeftAligned padRightAligned
  rw [List.replicate_add]
  show _ = [' ', '*', ' '] ++ t.1 ++ [':'] ++ _ ++ F.int t.2 ++ [' ', 'm', 's', ' ', '('] ++ _ ++ ['%', ')'] ++ ['\n']
  simp only [List.append_assoc, List.cons_append, List.nil_append]

/-- C88: the report is one line with the total, the sum of all durations, and then, in the order of the run, one line per step with its
name, its duration and its percentage. -/
theorem c88_text (F : NumberFormat) (ts : List (Str × ℕ)) : ∃ lines : List Str,
    timesReport F ts = "\x1b[1mFinished in ".toList ++ F.int ((ts.map (·.2)).sum) ++ " ms.\x1b[0m\n".toList ++ (lines.map (· ++ ['\n'])).flatten ∧
    List.Forall₂ (fun l t => ∃ k, l = " * ".toList ++ t.1 ++ ":".toList ++ List.replicate k ' ' ++ F.int t.2 ++ " ms (".toList ++
      shownPercent F ((ts.map (·.2)).sum) t.2 ++ "%)".toList) lines ts := by
  have hgen : ∀ (total : ℕ) (l : List (Str × ℕ)), ∃ lines : List Str,
      l.flatMap (timingLine F total) = (lines.map (· ++ ['\n'])).flatten ∧
      List.Forall₂ (fun l t => ∃ k, l = " * ".toList ++ t.1 ++ ":".toList ++ List.replicate k ' ' ++ F.int t.2 ++ " ms (".toList ++
        shownPercent F total t.2 ++ "%)".toList) lines l := by
    intro total l
    induction l with
    | nil => exact ⟨[], rfl, List.Forall₂.nil⟩
    | cons t l ih =>
      obtain ⟨lines, h1, h2⟩ := ih
      obtain ⟨k, hk⟩ := rp_line F total t
      refine ⟨_ :: lines, ?_, List.Forall₂.cons ⟨k, rfl⟩ h2⟩
      rw [List.flatMap_cons, hk, h1, List.map_cons, List.flatten_cons]
  obtain ⟨lines, h1, h2⟩ := hgen (timeTotal ts) ts
  refine ⟨lines, ?_, by rw [← rp_total]; exact h2⟩
  unfold timesReport
  rw [h1, rp_total]
  have e1 : "\x1b[1m".toList ++ "Finished in ".toList = "\x1b[1mFinished in ".toList := by decide +kernel
  have e2 : " ms.".toList ++ ("\x1b[0m".toList ++ ['\n']) = " ms.\x1b[0m\n".toList := by decide +kernel
  rw [e1, ← e2]
  simp only [List.append_assoc]

/-- C88 (partial: only if the names are short, see `c88_aligned_refuted`): the durations stand in one column, whose right end is the 29th
character, if the names have at most 21 characters and the durations at most 4. -/
theorem c88_aligned_partial (F : NumberFormat) (total : ℕ) (t : Str × ℕ) (hn : t.1.length ≤ 21) (hd : (F.int t.2).length ≤ 4) :
    ∃ front, (front ++ F.int t.2).length = 29 ∧
      timingLine F total t = front ++ F.int t.2 ++ " ms (".toList ++ shownPercent F total t.2 ++ "%)\n".toList := by
  refine ⟨padLeftAligned 25 ([' ', '*', ' '] ++ t.1 ++ [':']) ++ List.replicate (4 - (F.int t.2).length) ' ', ?_, ?_⟩
  · unfold padLeftAligned
    simp only [List.length_append, List.length_replicate, List.length_cons, List.length_nil]
    omega
  · rw [rp_timingLine]
    unfold padRightAligned
    show _ = _ ++ _ ++ [' ', 'm', 's', ' ', '('] ++ _ ++ ['%', ')', '\n']
    simp only [List.append_assoc, List.cons_append, List.nil_append]

/-- Finding: the column is too narrow for five of the program's own steps: their lines push the duration to the right. -/
theorem c88_aligned_refuted :
    (([Stage.glyphStatistics, .diacritics, .words, .wordStatistics, .segmentation, .lines, .scripts, .lineStatistics, .blocks, .readingOrder,
      .dehyphenation].filter fun st => decide (21 < st.timing.length)) =
      [.glyphStatistics, .diacritics, .wordStatistics, .scripts, .lineStatistics]) ∧
    ∀ (F : NumberFormat) (total ms : ℕ) (st : Stage), 21 < st.timing.length →
      ∃ rest, timingLine F total (st.timing, ms) = " * ".toList ++ st.timing ++ ":".toList ++ padRightAligned 4 (F.int ms) ++ rest := by
  refine ⟨by decide +kernel, ?_⟩
  intro F total ms st h
  refine ⟨[' ', 'm', 's', ' '] ++ ['('] ++ shownPercent F total ms ++ ['%', ')'] ++ ['\n'], ?_⟩
  rw [rp_timingLine]
  unfold padLeftAligned
  have h0 : 25 - ([' ', '*', ' '] ++ (st.timing, ms).1 ++ [':']).length = 0 := by
    simp only [List.length_append, List.length_cons, List.length_nil]
    omega
  rw [h0]
  show [' ', '*', ' '] ++ st.timing ++ [':'] ++ [] ++ _ ++ _ ++ _ ++ _ ++ _ ++ _ = [' ', '*', ' '] ++ st.timing ++ [':'] ++ _ ++ _
  rw [List.append_nil]
  simp only [List.append_assoc]

/-! ### The switch -/

theorem rp_parse (s : SerializersOrder) (g : Given) (flag' : String → Bool)
    (h : ∀ name, name ≠ "print-running-times" → flag' name = g.flag name) :
    (∀ a, parseArgs s g = .ok a →
      parseArgs s { g with flag := flag' } = .ok { a with printRunningTimes := flag' "print-running-times" }) ∧
    ((∀ a, parseArgs s g ≠ .ok a) → ∀ a, parseArgs s { g with flag := flag' } ≠ .ok a) ∧
    storeOk s { g with flag := flag' } = storeOk s g := by
  have e1 := h "help" (by decide)
  have e2 := h "version" (by decide)
  have e3 := h "full-help" (by decide)
  have e4 : visualizeOptions.filter flag' = visualizeOptions.filter g.flag := by
    apply List.filter_congr
    intro n hn
    apply h
    revert hn; revert n
    decide +kernel
  have e5 : (fun st => flag' (skipOption st)) = fun st => g.flag (skipOption st) := by
    funext st; exact h _ (by cases st <;> decide)
  have e6 : (fun st => flag' (debugOption st)) = fun st => g.flag (debugOption st) := by
    funext st; exact h _ (by cases st <;> decide)
  have e7 := h "skip-embedded-font-files-parsing" (by decide)
  have e8 := h "skip-semantic-roles-prediction" (by decide)
  have e9 := h "debug-pdf-parsing" (by decide)
  have e10 := h "debug-semantic-roles-prediction" (by decide)
  have e11 := h "control-characters" (by decide)
  have e12 := h "semantic-roles" (by decide)
  have e13 := h "no-scripts" (by decide)
  have e14 := h "no-dehyphenation" (by decide)
  refine ⟨?_, ?_, ?_⟩
  · intro a
    unfold parseArgs
    simp only [e1, e2, e3, e4, e5, e6, e7, e8, e9, e10, e11, e12, e13, e14]
    cases validateOnce (validateFormat s) .txt g.format <;> [skip; exact nofun; exact nofun]
    cases validateAll validateRole g.role <;> [skip; exact nofun; exact nofun]
    cases validateAll validateType g.type <;> [skip; exact nofun; exact nofun]
    cases once ['-'] id g.outputFile <;> [skip; exact nofun; exact nofun]
    cases once [] id g.visualizationPath <;> [skip; exact nofun; exact nofun]
    cases once "error".toList id g.verbosity <;> [skip; exact nofun; exact nofun]
    cases once (-1) id g.logPageFilter <;> [skip; exact nofun; exact nofun]
    simp only [Outcome.bind]
    rcases g.pdfFile with _ | ⟨p, _ | ⟨q, qs⟩⟩
    · exact nofun
    · intro ha
      simp only [Outcome.ok.injEq] at ha ⊢
      subst ha
      rfl
    · exact nofun
  · intro hno a
    revert hno
    unfold parseArgs
    simp only [e1, e2, e3, e4, e5, e6, e7, e8, e9, e10, e11, e12, e13, e14]
    cases validateOnce (validateFormat s) .txt g.format <;> [skip; exact fun _ => nofun; exact fun _ => nofun]
    cases validateAll validateRole g.role <;> [skip; exact fun _ => nofun; exact fun _ => nofun]
    cases validateAll validateType g.type <;> [skip; exact fun _ => nofun; exact fun _ => nofun]
    cases once ['-'] id g.outputFile <;> [skip; exact fun _ => nofun; exact fun _ => nofun]
    cases once [] id g.visualizationPath <;> [skip; exact fun _ => nofun; exact fun _ => nofun]
    cases once "error".toList id g.verbosity <;> [skip; exact fun _ => nofun; exact fun _ => nofun]
    cases once (-1) id g.logPageFilter <;> [skip; exact fun _ => nofun; exact fun _ => nofun]
    simp only [Outcome.bind]
    rcases g.pdfFile with _ | ⟨p, _ | ⟨q, qs⟩⟩
    · exact fun _ => nofun
    · intro hno
      exact absurd rfl (hno _)
    · exact fun _ => nofun
  · unfold storeOk parseArgs
    cases validateOnce (validateFormat s) .txt g.format <;> [skip; rfl; rfl]
    cases validateAll validateRole g.role <;> [skip; rfl; rfl]
    cases validateAll validateType g.type <;> [skip; rfl; rfl]
    cases once ['-'] id g.outputFile <;> [skip; rfl; rfl]
    cases once [] id g.visualizationPath <;> [skip; rfl; rfl]
    cases once "error".toList id g.verbosity <;> [skip; rfl; rfl]
    cases once (-1) id g.logPageFilter <;> [skip; rfl; rfl]
    rfl

theorem rp_main_failed (os : Os) (engine : Config → Str → Engine) (clock : ℕ → ℕ) (s : SerializersOrder)
    (seen : Bool × Bool × Bool) (g : Given) (h : ∀ a, parseArgs s g ≠ .ok a) :
    Cli.main os engine clock s seen g =
      (let seen := if storeOk s g then (g.flag "full-help", g.flag "help", g.flag "version") else seen
      if seen.1 then ⟨[.fullHelp], some 0⟩
      else if seen.2.1 then ⟨[.help], some 0⟩
      else if seen.2.2 then ⟨[.version], some 0⟩
      else ⟨[.usageError], some 1⟩) := by
  unfold Cli.main
  cases hp : parseArgs s g with
  | ok a => exact absurd hp (h a)
  | throw m => rfl
  | ub m => rfl

/-- A run with the switch is a run without it, followed by a report (or nothing). -/
def AddsReport (r r' : Run) : Prop :=
  r.exit = r'.exit ∧ (∀ ts, Action.times ts ∉ r'.actions) ∧ (r.actions = r'.actions ∨ ∃ ts, r.actions = r'.actions ++ [.times ts])

theorem rp_after (os : Os) (engine : Config → Str → Engine) (clock : ℕ → ℕ) (a : Args) (b : Bool) :
    AddsReport (mainAfterParsing os engine clock { a with printRunningTimes := b })
      (mainAfterParsing os engine clock { a with printRunningTimes := false }) := by
  have hw : ∀ (l : List Write) (ts : List (Str × ℕ)), Action.times ts ∉ l.map Action.write := by
    intro l ts h
    obtain ⟨w, _, hw⟩ := List.mem_map.mp h
    cases hw
  unfold mainAfterParsing
  show AddsReport (if a.printFullHelp = true then _ else if a.printHelp = true then _ else if a.printVersion = true then _ else
      match engine (configOf a) a.pdfFile with
      | .invalidArgument => ⟨[.error], some 3⟩
      | .otherException => ⟨[], none⟩
      | .finished status doc timings => _)
    (if a.printFullHelp = true then _ else if a.printHelp = true then _ else if a.printVersion = true then _ else
      match engine (configOf a) a.pdfFile with
      | .invalidArgument => ⟨[.error], some 3⟩
      | .otherException => ⟨[], none⟩
      | .finished status doc timings => _)
  by_cases h1 : a.printFullHelp = true
  · rw [if_pos h1, if_pos h1]; exact ⟨rfl, by simp, Or.inl rfl⟩
  rw [if_neg h1, if_neg h1]
  by_cases h2 : a.printHelp = true
  · rw [if_pos h2, if_pos h2]; exact ⟨rfl, by simp, Or.inl rfl⟩
  rw [if_neg h2, if_neg h2]
  by_cases h3 : a.printVersion = true
  · rw [if_pos h3, if_pos h3]; exact ⟨rfl, by simp, Or.inl rfl⟩
  rw [if_neg h3, if_neg h3]
  cases engine (configOf a) a.pdfFile with
  | invalidArgument => exact ⟨rfl, by simp, Or.inl rfl⟩
  | otherException => exact ⟨rfl, by simp, Or.inl rfl⟩
  | finished status doc timings =>
    show AddsReport (if status > 0 then _ else _) (if status > 0 then _ else _)
    by_cases h4 : status > 0
    · rw [if_pos h4, if_pos h4]; exact ⟨rfl, by simp, Or.inl rfl⟩
    rw [if_neg h4, if_neg h4]
    refine ⟨rfl, ?_, ?_⟩
    · intro ts hm
      simp only [Bool.false_eq_true, if_false, List.append_nil] at hm
      rcases List.mem_append.mp hm with hm | hm
      · cases hr : runSerializer a.format a.roles doc with
        | none => rw [hr] at hm; cases hm
        | some text => rw [hr] at hm; exact hw _ _ hm
      · split at hm
        · rw [List.mem_singleton] at hm; cases hm
        · cases hm
    · cases b with
      | false => exact Or.inl rfl
      | true =>
        right
        simp only [Bool.false_eq_true, if_false, if_true, List.append_nil]
        exact ⟨_, rfl⟩

/-- C88: the switch only adds to the output: for every command line and every file, the run with `--print-running-times` has the exit code of
the run without it and does everything that one does, in the same order; at most a report comes after that, and without the switch there is
none. -/
theorem c88_only_adds (os : Os) (engine : Config → Str → Engine) (clock : ℕ → ℕ) (s : SerializersOrder)
    (seen : Bool × Bool × Bool) (g : Given) (flag' : String → Bool)
    (h : ∀ name, name ≠ "print-running-times" → flag' name = g.flag name) (hoff : flag' "print-running-times" = false) :
    AddsReport (Cli.main os engine clock s seen g) (Cli.main os engine clock s seen { g with flag := flag' }) := by
  obtain ⟨hp1, hp2, hst⟩ := rp_parse s g flag' h
  by_cases hok : ∃ a, parseArgs s g = .ok a
  · obtain ⟨a, ha⟩ := hok
    have h1 : Cli.main os engine clock s seen g = mainAfterParsing os engine clock { a with printRunningTimes := a.printRunningTimes } := by
      unfold Cli.main; rw [ha]
    have h2 : Cli.main os engine clock s seen { g with flag := flag' } =
        mainAfterParsing os engine clock { a with printRunningTimes := false } := by
      unfold Cli.main; rw [hp1 a ha, hoff]
    rw [h1, h2]
    exact rp_after os engine clock a a.printRunningTimes
  · have hno : ∀ a, parseArgs s g ≠ .ok a := fun a ha => hok ⟨a, ha⟩
    rw [rp_main_failed os engine clock s seen g hno, rp_main_failed os engine clock s seen _ (hp2 hno), hst]
    simp only [h "help" (by decide), h "version" (by decide), h "full-help" (by decide)]
    generalize (if storeOk s g = true then (g.flag "full-help", g.flag "help", g.flag "version") else seen) = q
    split
    · exact ⟨rfl, by simp, Or.inl rfl⟩
    split
    · exact ⟨rfl, by simp, Or.inl rfl⟩
    split
    · exact ⟨rfl, by simp, Or.inl rfl⟩
    · exact ⟨rfl, by simp, Or.inl rfl⟩

/-- C88: a successful run with the switch ends with the report, and the report has one entry for loading, parsing, every enabled stage, writing
the output and (if asked for) the visualization, in this order. -/
theorem c88_steps {D : Type} (os : Os) (env : Str → Env D) (view : D → SDoc) (newDoc : D) (clock : ℕ → ℕ) (s : SerializersOrder)
    (seen : Bool × Bool × Bool) (g : Given) (a : Args) (h : parseArgs s g = .ok a)
    (hnohelp : g.flag "help" = false ∧ g.flag "version" = false ∧ g.flag "full-help" = false)
    (hon : g.flag "print-running-times" = true) (hl : (env a.pdfFile).loadError = none)
    (d' : D) (hrun : runAll (steps (env a.pdfFile) (configOf a)) newDoc = .ok d') :
    ∃ before ts, (Cli.main os (engineOf env view newDoc) clock s seen g).actions = before ++ [.times ts] ∧
      (Cli.main os (engineOf env view newDoc) clock s seen g).exit = some 0 ∧ (∀ ts', Action.times ts' ∉ before) ∧
      ts.map (·.1) = timingNames (configOf a) ++ ["Serialize".toList] ++
        (if g.visualizationPath = [] ∨ g.visualizationPath = [[]] then [] else ["Visualize".toList]) := by
  obtain ⟨-, -, -, hvis, -, -, -, -, -, hh, hv, hfh, -, hrt, -⟩ := parseArgs_ok h
  obtain ⟨ts', hproc, -, hts⟩ := (c44_stages (env a.pdfFile) (configOf a) newDoc (some []) hl).1 d' hrun
  obtain ⟨l', rfl, hl'⟩ := hts [] rfl
  have hvp : (a.visualizationPath ≠ []) ↔ ¬ (g.visualizationPath = [] ∨ g.visualizationPath = [[]]) := by
    rcases hg : g.visualizationPath with _ | ⟨p, _ | ⟨q, qs⟩⟩
    · rw [hg] at hvis
      have : a.visualizationPath = [] := by simpa [once] using hvis.symm
      simp [this]
    · rw [hg] at hvis
      have : a.visualizationPath = p := by simpa [once] using hvis.symm
      rw [this]; simp
    · rw [hg] at hvis; cases hvis
  have heng : engineOf env view newDoc (configOf a) a.pdfFile = .finished 0 (view d') l' := by
    unfold engineOf; rw [hproc]; rfl
  have hmain : Cli.main os (engineOf env view newDoc) clock s seen g = mainAfterParsing os (engineOf env view newDoc) clock a := by
    unfold Cli.main; rw [h]
  have hw : ∀ (l : List Write) (ts : List (Str × ℕ)), Action.times ts ∉ l.map Action.write := by
    intro l ts h
    obtain ⟨w, _, hw⟩ := List.mem_map.mp h
    cases hw
  rw [hmain]
  unfold mainAfterParsing
  rw [hh, hv, hfh, hnohelp.1, hnohelp.2.1, hnohelp.2.2]
  simp only [Bool.false_eq_true, if_false, heng]
  rw [if_neg (by omega)]
  simp only [hrt, hon, if_true]
  refine ⟨_, _, rfl, trivial, ?_, ?_⟩
  · intro ts hm
    rcases List.mem_append.mp hm with hm | hm
    · cases hr : runSerializer a.format a.roles (view d') with
      | none => rw [hr] at hm; cases hm
      | some text => rw [hr] at hm; exact hw _ _ hm
    · split at hm
      · rw [List.mem_singleton] at hm; cases hm
      · cases hm
  · simp only [List.map_nil, List.nil_append] at hl'
    by_cases hq : g.visualizationPath = [] ∨ g.visualizationPath = [[]]
    · rw [if_pos hq, if_neg (fun hne => (hvp.mp hne) hq)]
      simp [hl']
    · rw [if_neg hq, if_pos (hvp.mpr hq)]
      simp [hl']

/-- Finding: the report goes to the same stream as the extracted text.  If the text is written to standard output (the default), a program that
reads it gets the report appended: what is printed is the text followed by the report, which is never empty. -/
theorem c88_stdout_refuted (F : NumberFormat) (os : Os) (engine : Config → Str → Engine) (clock : ℕ → ℕ) (s : SerializersOrder)
    (seen : Bool × Bool × Bool) (g : Given) (a : Args) (h : parseArgs s g = .ok a) (status : ℤ) (doc : SDoc)
    (ts : List (Str × ℕ)) (hnohelp : g.flag "help" = false ∧ g.flag "version" = false ∧ g.flag "full-help" = false)
    (hon : g.flag "print-running-times" = true)
    (he : engine (configOf a) a.pdfFile = .finished status doc ts) (hst : status ≤ 0) (hout : g.outputFile = []) (hfmt : g.format = [])
    (hrole : g.role = []) :
    ∃ all, stdoutOfRun F (Cli.main os engine clock s seen g) = plainText getRoles doc ++ timesReport F all ∧ timesReport F all ≠ [] := by
  obtain ⟨hf, ⟨roles, hroles, harole⟩, hao, -, -, -, -, -, -, hh, hv, hfh, -, hrt, -⟩ := parseArgs_ok h
  have hfa : a.format = .txt := by rw [hfmt] at hf; simpa [validateOnce] using hf.symm
  have hoa : a.outputFile = ['-'] := by rw [hout] at hao; simpa [once] using hao.symm
  have hra : a.roles = getRoles := by rw [harole, if_pos hrole]
  have hmain : Cli.main os engine clock s seen g = mainAfterParsing os engine clock a := by
    unfold Cli.main; rw [h]
  rw [hmain]
  unfold mainAfterParsing
  rw [hh, hv, hfh, hnohelp.1, hnohelp.2.1, hnohelp.2.2]
  simp only [Bool.false_eq_true, if_false, he]
  rw [if_neg (by omega)]
  simp only [hrt, hon, if_true, hfa, hoa, hra, runSerializer, writeOutput, List.length_cons, List.length_nil, Nat.zero_add, true_and]
  refine ⟨(if a.visualizationPath ≠ [] then ts ++ [("Serialize".toList, clock 0)] ++ [("Visualize".toList, clock 1)]
      else ts ++ [("Serialize".toList, clock 0)]), ?_, ?_⟩
  rotate_left
  · unfold timesReport
    exact List.append_ne_nil_of_left_ne_nil (List.append_ne_nil_of_right_ne_nil _ (by simp)) _
  · have hd : (['-'] : Str)[0]? = some '-' := rfl
    rw [if_pos hd]
    unfold stdoutOfRun
    generalize plainText getRoles doc = text
    by_cases hp : a.visualizationPath = []
    · simp only [hp, ne_eq, not_true_eq_false, if_false]
      generalize (ts ++ [("Serialize".toList, clock 0)]) = all
      show text ++ (timesReport F all ++ []) = _
      rw [List.append_nil]
    · simp only [hp, ne_eq, not_false_eq_true, if_true]
      generalize (ts ++ [("Serialize".toList, clock 0)] ++ [("Visualize".toList, clock 1)]) = all
      show text ++ ([] ++ (timesReport F all ++ [])) = _
      rw [List.append_nil, List.nil_append]

/-- A command line with the switch, for the premises of the theorems above. -/
def rpArgs : Given := { pdfFile := ["a.pdf".toList], flag := fun n => decide (n = "print-running-times") }

/-- The premises of `c88_steps` and `c88_stdout_refuted` hold for this command line and an environment in which everything succeeds; and the run
has thirteen steps before writing the output. -/
example : ∃ a, parseArgs someOrder rpArgs = .ok a ∧ rpArgs.flag "print-running-times" = true ∧
    (rpArgs.flag "help" = false ∧ rpArgs.flag "version" = false ∧ rpArgs.flag "full-help" = false) ∧
    rpArgs.outputFile = [] ∧ rpArgs.format = [] ∧ rpArgs.role = [] ∧ someEnv.loadError = none ∧
    (∃ d, runAll (steps someEnv (configOf a)) [] = .ok d) ∧
    (timingNames (configOf a)).length = 13 := by
  refine ⟨_, rfl, ?_, ?_, ?_, ?_, ?_, ?_, ⟨_, rfl⟩, ?_⟩ <;> decide +kernel

/-- The premises of `c88_only_adds` hold for it, and the two runs really differ. -/
example : (∀ name, name ≠ "print-running-times" → (fun _ => false : String → Bool) name = rpArgs.flag name) ∧
    (Cli.main ⟨fun _ => false, fun _ => true⟩ (engineOf (fun _ => someEnv) (fun _ => { pages := [] }) []) (fun _ => 5) someOrder
      (false, false, false) rpArgs).actions.length = 2 ∧
    (Cli.main ⟨fun _ => false, fun _ => true⟩ (engineOf (fun _ => someEnv) (fun _ => { pages := [] }) []) (fun _ => 5) someOrder
      (false, false, false) { rpArgs with flag := fun _ => false }).actions.length = 1 := by
  refine ⟨?_, by decide +kernel, by decide +kernel⟩
  intro name h
  exact (decide_eq_false h).symm

end Verif.Props
