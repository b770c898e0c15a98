import Verif.Props.PipelineEnd
import Verif.Props.Serializers

/-!
# C65: from the characters of the PDF to the printed text
-/

namespace Verif.Props

open Verif.Math Verif.Elements Verif.Spec Verif.Words Verif.TextLines Verif.Pipeline Verif.Counter
open Verif.PageSegmentation (PElem DocStats PageElems)
open Verif.ReadingOrder (RElem Role)
open Verif.Serialize (SChar SWord SLine SBlock SPage SDoc)
open Verif.Cli (Stage StageConfig Env Config)
open Verif.Text (Str)

/-! ## The words of the pages at the end -/

/-- The words of a page in the order of its blocks and lines. -/
def pageWords (p : SPage) : List SWord := wordsOf (p.blocks.flatMap (·.lines))

/-- A word without the marks of dehyphenation. -/
def unmarked (w : SWord) : SWord := { w with first := none, second := false }

/-- No word is marked. -/
def noHyphens : Dehyphenation.Flags := ⟨fun _ => none, fun _ => false⟩

theorem pl_pageWords (d : Document) (k : ℕ) (p : Page) :
    pageWords (toSPage d k p) = sWordsAt d.hyphens k d.lines (p.blocks.flatMap (·.block.lines)) := by
  unfold pageWords wordsOf toSPage sWordsAt
  simp only [List.flatMap_map, List.flatMap_assoc, List.map_flatMap]
  congr 1
  funext b
  unfold toSBlock wordsAt
  simp only [List.flatMap_map]

theorem pl_visited (ws : List Word) : ws.flatMap (wordGroup ws) = (visited ws).filterMap (ws[·]?) := by
  have h : ∀ (pre l : List Word), ws = pre ++ l → l.flatMap (wordGroup ws) =
      ((List.range' pre.length l.length).flatMap fun j =>
        match ws[j]? with
        | some w => if w.partOf.isSome then [] else j :: w.parts
        | none => []).filterMap (ws[·]?) := by
    intro pre l
    induction l generalizing pre with
    | nil => intro _; rfl
    | cons w l ih =>
      intro he
      have hw : ws[pre.length]? = some w := by rw [he]; simp
      rw [List.flatMap_cons, List.length_cons, List.range'_succ, List.flatMap_cons, List.filterMap_append]
      have := ih (pre ++ [w]) (by rw [he]; simp)
      rw [List.length_append, List.length_singleton] at this
      rw [this]
      congr 1
      rw [hw]
      unfold wordGroup
      simp only
      split
      · rfl
      · simp only [List.filterMap_cons, hw]
  rw [h [] ws rfl, visited, List.range_eq_range']
  rfl

theorem pl_toSWord_merge (ws : List Word) (hf : Fresh ws) (h : Dehyphenation.Flags) (k : ℕ) (js : List ℕ) :
    (js.filterMap ((mergeStackedMathSymbols ws)[·]?)).map (toSWord h k) = (js.filterMap (ws[·]?)).map (toSWord h k) := by
  induction js with
  | nil => rfl
  | cons j js ih =>
    obtain ⟨ps, po, hj⟩ := pl_merge_get ws hf j
    rw [List.filterMap_cons, List.filterMap_cons]
    cases hw : ws[j]? with
    | none => rw [hw] at hj; simp only [Option.map_none] at hj; rw [hj]; exact ih
    | some w =>
      rw [hw] at hj
      simp only [Option.map_some] at hj
      rw [hj]
      simp only [List.map_cons, ih]
      rfl

theorem pl_forall₂_get {α β : Type} {R : α → β → Prop} {l : List α} {m : List β} (h : List.Forall₂ R l m) :
    ∀ (k : ℕ) (a : α), l[k]? = some a → ∃ b, m[k]? = some b ∧ R a b := by
  induction h with
  | nil => intro k a hk; simp at hk
  | cons hab _ ih =>
    intro k a hk
    cases k with
    | zero => simp only [List.getElem?_cons_zero, Option.some.injEq] at hk; subst hk; exact ⟨_, by simp, hab⟩
    | succ k => simpa using ih k a (by simpa using hk)

theorem pl_setHyphens (d : Document) (f : Dehyphenation.Flags) (k : ℕ) (p : Page) :
    (pageWords (toSPage { d with hyphens := f } k p)).map unmarked =
      (pageWords (toSPage { d with hyphens := noHyphens } k p)).map unmarked := by
  rw [pl_pageWords, pl_pageWords]
  unfold sWordsAt
  rw [List.map_map, List.map_map]
  rfl

/-- The stages without which there is no text. -/
def Complete (cfg : Config) : Prop :=
  Enabled cfg .words ∧ Enabled cfg .segmentation ∧ Enabled cfg .lines ∧ Enabled cfg .blocks

/-- The characters of a page after merging the diacritical marks (if this is not skipped), and the words detected from them. -/
def DetectedWords (lib : Pipeline.Lib) (cfg : Config) (p : Page) (cs : List Glyph) (ws : List Word) : Prop :=
  (if Enabled cfg .diacritics then Diacritics.processPage lib.compose p.characters = .ok cs else cs = p.characters) ∧
  ∃ a, detectWords lib.lines.hash (Active.reset p.pageNum) p.pageNum cs = .ok (ws, a)

theorem pl_page {lib : Pipeline.Lib} {n : ℕ} {cfg : Config} {d0 d1 : Document} (hc : Complete cfg)
    (h : DocInv lib n (ranOf cfg) d0 d1) (k : ℕ) (p0 : Page) (hk : d0.pages[k]? = some p0) :
    ∃ p cs ws, d1.pages[k]? = some p ∧ DetectedWords lib cfg p0 cs ws ∧ (∀ c ∈ cs, GoodGlyph n c) ∧ ∀ f,
      (pageWords (toSPage { d1 with hyphens := f } k p)).Perm
        (((visited (mergeStackedMathSymbols ws)).filterMap (ws[·]?)).map (toSWord f k)) := by
  obtain ⟨h1, h2, h3, h4⟩ := hc
  obtain ⟨p, hp, hi⟩ := pl_forall₂_get h.pages k p0 hk
  have hw := hi.words
  have hl := hi.lines
  have hb := hi.blocks
  have hch := hi.chars
  have hg := hi.glyphs
  have hnum := hi.num
  simp only [ranOf, decide_eq_true h1, decide_eq_true h2, decide_eq_true h3, decide_eq_true h4, if_true] at hw hl hb hch
  obtain ⟨ws, a, hw1, hw2⟩ := hw
  refine ⟨p, p.characters, ws, hp, ⟨?_, a, by rw [← hnum]; exact hw1⟩, hg, ?_⟩
  · by_cases hm : Enabled cfg .diacritics
    · rw [if_pos hm]; simpa [hm] using hch
    · rw [if_neg hm]; simpa [hm] using hch
  · intro f
    obtain ⟨ws', a', q1, q2, _⟩ := pl_words lib.lines.hash (Active.reset p.pageNum) p.pageNum p.characters hg
    rw [hw1] at q1
    simp only [Outcome.ok.injEq, Prod.mk.injEq] at q1
    obtain ⟨rfl, rfl⟩ := q1
    rw [pl_pageWords]
    simp only
    have hperm : (sWordsAt f k d1.lines (p.blocks.flatMap (·.block.lines))).Perm (sWordsAt f k d1.lines (p.segments.flatMap (·.lines))) :=
      (hb.1.flatMap_right _).map _
    refine hperm.trans ((hl f k).trans (List.Perm.of_eq ?_))
    rw [pl_visited, hw2, pl_toSWord_merge ws q2]

/-! ## C65 -/

theorem pl_process {lib : Pipeline.Lib} {n : ℕ} (hn : n ≤ 3) (hl : LibOk lib) (parse : StageConfig → Bool → Document → Outcome Document) (dur : ℕ → ℕ)
    (cfg : Config) (d d0 : Document) (ts : Option (List (Str × ℕ))) (hparse : parse cfg.parsing cfg.skipFontFiles d = .ok d0) (hp : ParsedDoc n d0) :
    (∃ d' ts', Cli.process (env lib none parse dur) cfg ⟨d, ts⟩ = .ok (0, ⟨d', ts'⟩) ∧ EndDoc lib n cfg d0 d') ∨
    Enabled cfg .readingOrder ∧ ∃ d1, DocInv lib n (ranOf cfg) d0 d1 ∧
      ((∃ m, predictRoles lib d1 = .throw m ∧ Cli.process (env lib none parse dur) cfg ⟨d, ts⟩ = .throw m) ∨
       ∃ m, predictRoles lib d1 = .ub m ∧ Cli.process (env lib none parse dur) cfg ⟨d, ts⟩ = .ub m) := by
  have h1 := pl_stages hn hl none parse dur cfg d0 hp
  obtain ⟨g1, g2, g3⟩ := c44_stages (env lib none parse dur) cfg d ts rfl
  have hr : runAll (steps (env lib none parse dur) cfg) d =
      runAll ((stageTable.map (·.1)).flatMap (stageSteps (env lib none parse dur) cfg) ++ [fun d => .ok (linesFromBlocks d)]) d0 := by
    rw [pl_steps, List.append_assoc, pl_runAll_append]
    have : runAll [(env lib none parse dur).parse cfg.parsing cfg.skipFontFiles] d = .ok d0 := by
      simp only [runAll, env]; rw [hparse]
    rw [this]
    rfl
  rw [hr] at g1 g2 g3
  rcases h1 with ⟨d', q1, q2⟩ | ⟨d1, ⟨q1, q2⟩, q3 | q3⟩
  · obtain ⟨ts', q3, _⟩ := g1 d' q1
    exact .inl ⟨d', ts', q3, q2⟩
  · obtain ⟨m, q3, q4⟩ := q3
    exact .inr ⟨q1, d1, q2, .inl ⟨m, q3, g2 m q4⟩⟩
  · obtain ⟨m, q3, q4⟩ := q3
    exact .inr ⟨q1, d1, q2, .inr ⟨m, q3, g3 m q4⟩⟩

/-- **C65.** A run on a document that could be parsed does not fail, whatever stages are skipped - except that the role prediction,
which reading order detection starts, may fail; then the run fails in the same way. -/
theorem c65_no_failure {lib : Pipeline.Lib} {n : ℕ} (hn : n ≤ 3) (hl : LibOk lib)
    (parse : StageConfig → Bool → Document → Outcome Document) (dur : ℕ → ℕ)
    (cfg : Config) (d d0 : Document) (ts : Option (List (Str × ℕ)))
    (hparse : parse cfg.parsing cfg.skipFontFiles d = .ok d0) (hp : ParsedDoc n d0) :
    (∃ d' ts', Cli.process (env lib none parse dur) cfg ⟨d, ts⟩ = .ok (0, ⟨d', ts'⟩)) ∨
    Enabled cfg .readingOrder ∧ ∃ d1,
      ((∃ m, predictRoles lib d1 = .throw m ∧ Cli.process (env lib none parse dur) cfg ⟨d, ts⟩ = .throw m) ∨
       ∃ m, predictRoles lib d1 = .ub m ∧ Cli.process (env lib none parse dur) cfg ⟨d, ts⟩ = .ub m) := by
  rcases pl_process hn hl parse dur cfg d d0 ts hparse hp with ⟨d', ts', h, _⟩ | ⟨h1, d1, _, h2⟩
  · exact .inl ⟨d', ts', h⟩
  · exact .inr ⟨h1, d1, h2⟩

/-- A run that ends with exit code 0. -/
theorem pl_result {lib : Pipeline.Lib} {n : ℕ} (hn : n ≤ 3) (hl : LibOk lib) {parse : StageConfig → Bool → Document → Outcome Document} {dur : ℕ → ℕ}
    {cfg : Config} {d d0 d' : Document} {ts ts' : Option (List (Str × ℕ))} (hparse : parse cfg.parsing cfg.skipFontFiles d = .ok d0) (hp : ParsedDoc n d0)
    (hrun : Cli.process (env lib none parse dur) cfg ⟨d, ts⟩ = .ok (0, ⟨d', ts'⟩)) : EndDoc lib n cfg d0 d' := by
  rcases pl_process hn hl parse dur cfg d d0 ts hparse hp with ⟨d2, ts2, h, h2⟩ | ⟨_, d1, _, ⟨m, _, h⟩ | ⟨m, _, h⟩⟩
  · rw [hrun] at h
    simp only [Outcome.ok.injEq, Prod.mk.injEq, true_and] at h
    cases h; exact h2
  · rw [hrun] at h; cases h
  · rw [hrun] at h; cases h

/-- **C65.** After a complete run, the words in the blocks of a page are the words detected on this page - each with its text, position, font and
characters -, apart from the words around stacked mathematical operators exactly once (`visited`, C25); they can only be in a different order.  Which words are
detected from the characters of the page is the subject of C22 and C24, the merging of diacritical marks of C38. -/
theorem c65_words_preserved {lib : Pipeline.Lib} {n : ℕ} (hn : n ≤ 3) (hl : LibOk lib) {parse : StageConfig → Bool → Document → Outcome Document}
    {dur : ℕ → ℕ} {cfg : Config} {d d0 d' : Document} {ts ts' : Option (List (Str × ℕ))} (hc : Complete cfg)
    (hparse : parse cfg.parsing cfg.skipFontFiles d = .ok d0) (hp : ParsedDoc n d0)
    (hrun : Cli.process (env lib none parse dur) cfg ⟨d, ts⟩ = .ok (0, ⟨d', ts'⟩)) :
    (toSDoc d').pages.length = d0.pages.length ∧
    ∀ (k : ℕ) (p0 : Page), d0.pages[k]? = some p0 → ∃ q cs ws, (toSDoc d').pages[k]? = some q ∧ DetectedWords lib cfg p0 cs ws ∧
      ((pageWords q).map unmarked).Perm
        (((visited (mergeStackedMathSymbols ws)).filterMap (ws[·]?)).map (toSWord noHyphens k)) := by
  obtain ⟨d1, h1, h2⟩ := pl_result hn hl hparse hp hrun
  rw [h2]
  refine ⟨by simp [toSDoc, h1.pages.length_eq], ?_⟩
  intro k p0 hk
  obtain ⟨p, cs, ws, g1, g2, _, g3⟩ := pl_page hc h1 k p0 hk
  refine ⟨_, cs, ws, by simp only [toSDoc, List.getElem?_mapIdx]; rw [g1]; rfl, g2, ?_⟩
  rw [pl_setHyphens]
  have := (g3 noHyphens).map unmarked
  rw [List.map_map] at this
  exact this

/-! ### No text is lost -/

/-- Stacked operators do not interfere: no word is claimed by two operators, and no operator that claims words is claimed by another one. -/
structure NoConflict (ws : List Word) : Prop where
  unique : ∀ i i' j, Claims ws i j → Claims ws i' j → i = i'
  flat : ∀ i j k, Claims ws i j → ¬ Claims ws k i

/-- What is printed of the characters of a page: all characters that are not diacritical marks merged into another one, in the order of the page, with the merged marks. -/
def VisibleText (lib : Pipeline.Lib) (cfg : Config) (p : Page) (t : Str) : Prop :=
  ∃ cs, (if Enabled cfg .diacritics then Diacritics.processPage lib.compose p.characters = .ok cs else cs = p.characters) ∧
    t = (cs.filter fun c => c.markOf.isNone).flatMap fun c => if c.baseOf.isSome then c.textWithMark else c.text

/-- Neither a blank nor a line break. -/
def visible (c : Char) : Bool := c ≠ ' ' && c ≠ '\n'

theorem pl_wordOut (k : ℕ) (w : Word) (h : w.text = (w.chars.map glyphText).flatten) :
    Serialize.wordOut (toSWord noHyphens k w) = w.text := by
  rw [h]
  simp only [Serialize.wordOut, toSWord, noHyphens, List.flatMap_map]
  rw [List.flatMap_def]
  congr 1

theorem pl_glyphTexts (cs : List Glyph) (h : ∀ c ∈ cs, c.markOf.isNone = true) :
    (cs.map glyphText).flatten = cs.flatMap fun c => if c.baseOf.isSome then c.textWithMark else c.text := by
  rw [List.flatMap_def]
  congr 1
  apply List.map_congr_left
  intro c hc
  have := h c hc
  rw [Option.isNone_iff_eq_none] at this
  simp [glyphText, this]

/-- One page without conflicts: its words are the detected ones. -/
theorem pl_page_all {lib : Pipeline.Lib} {n : ℕ} {cfg : Config} {d0 d1 : Document} (hc : Complete cfg)
    (h : DocInv lib n (ranOf cfg) d0 d1) (k : ℕ) (p0 : Page) (hk : d0.pages[k]? = some p0)
    (hno : ∀ cs ws, DetectedWords lib cfg p0 cs ws → NoConflict ws) :
    ∃ p cs ws, d1.pages[k]? = some p ∧ DetectedWords lib cfg p0 cs ws ∧
      (∀ f, (pageWords (toSPage { d1 with hyphens := f } k p)).Perm (ws.map (toSWord f k))) ∧
      (∀ (i : ℕ) (w : Word), ws[i]? = some w → w.rank = i) ∧ (∀ w ∈ ws, w.text = (w.chars.map glyphText).flatten) ∧
      (ws.map (·.chars)).flatten = cs.filter fun c => c.markOf.isNone := by
  obtain ⟨p, cs, ws, g1, g2, g3, g4⟩ := pl_page hc h k p0 hk
  have hnc := hno cs ws g2
  obtain ⟨hd1, a, hd2⟩ := g2
  obtain ⟨ws', a', q1, q2, q3, q4, q5⟩ := pl_words lib.lines.hash (Active.reset p0.pageNum) p0.pageNum cs g3
  rw [hd2] at q1
  simp only [Outcome.ok.injEq, Prod.mk.injEq] at q1
  obtain ⟨rfl, rfl⟩ := q1
  refine ⟨p, cs, ws, g1, ⟨hd1, a, hd2⟩, ?_, q4, fun w hw => (q5 w hw).2.2.2.1, q3⟩
  intro f
  refine (g4 f).trans (List.Perm.map _ ?_)
  refine ((c25_visited_once_partial ws q2 hnc.unique hnc.flat).filterMap _).trans (List.Perm.of_eq ?_)
  exact pl_allWords ws

theorem pl_intercalate_filter (sep : Str) (hs : ∀ c ∈ sep, visible c = false) (ls : List Str) :
    (sep.intercalate ls).filter visible = ls.flatten.filter visible := by
  have hsep : sep.filter visible = [] := by
    rw [List.filter_eq_nil_iff]; intro c hc; simp [hs c hc]
  induction ls with
  | nil => rfl
  | cons l ls ih =>
    cases ls with
    | nil => simp [List.intercalate]
    | cons m ls =>
      have e : sep.intercalate (l :: m :: ls) = l ++ sep ++ sep.intercalate (m :: ls) := by
        simp [List.intercalate, List.intersperse]
      rw [e, List.filter_append, List.filter_append, ih, hsep, List.append_nil, List.flatten_cons (l := l), List.filter_append]

/-- The visible characters of the plain text are those of the printed words. -/
theorem pl_plainText (doc : SDoc) : (Serialize.plainText allRoles doc).filter visible = (printedWords doc).flatten.filter visible := by
  rw [c34_default_prints_all, List.filter_append, pl_intercalate_filter _ (by decide)]
  have h1 : ∀ b : SBlock, (printedBlock b).filter visible =
      ((((wordsOf b.lines).filter fun w => !w.second).map Serialize.wordOut).flatten).filter visible := by
    intro b
    unfold printedBlock
    rw [pl_intercalate_filter _ (by decide)]
    congr 2
    apply List.map_congr_left
    intro w _
    rw [wordOut_eq]
  have h2 : (['\n'] : Str).filter visible = [] := by decide
  rw [h2, List.append_nil]
  have h3 : printedWords doc = (doc.pages.flatMap (·.blocks)).flatMap fun b => ((wordsOf b.lines).filter fun w => !w.second).map Serialize.wordOut := by
    unfold printedWords wordsOf Dehyphenation.allLines
    simp only [List.flatMap_assoc, List.filter_flatMap, List.map_flatMap]
  rw [h3]
  generalize doc.pages.flatMap (·.blocks) = bs
  induction bs with
  | nil => rfl
  | cons b bs ih =>
    rw [List.map_cons, List.flatten_cons, List.filter_append, ih, h1, List.flatMap_cons, List.flatten_append, List.filter_append]

theorem pl_allLines (doc : SDoc) : wordsOf (Dehyphenation.allLines doc) = doc.pages.flatMap pageWords := by
  unfold wordsOf Dehyphenation.allLines pageWords wordsOf
  rw [List.flatMap_assoc]

/-- The words of the whole document, page by page. -/
theorem pl_doc_words {lib : Pipeline.Lib} {n : ℕ} {cfg : Config} {d0 d1 : Document} (hc : Complete cfg)
    (h : DocInv lib n (ranOf cfg) d0 d1) (hy : d1.hyphens = noHyphens)
    (hno : ∀ p0 ∈ d0.pages, ∀ cs ws, DetectedWords lib cfg p0 cs ws → NoConflict ws) :
    (∃ texts, List.Forall₂ (VisibleText lib cfg) d0.pages texts ∧
      (((wordsOf (Dehyphenation.allLines (toSDoc d1))).map (·.text)).flatten).Perm texts.flatten) ∧
    FreshDoc (toSDoc d1) := by
  have hself : { d1 with hyphens := noHyphens } = d1 := by rw [← hy]
  have hpage : ∀ (k : ℕ) (q : SPage), (toSDoc d1).pages[k]? = some q → ∃ p0 cs ws, d0.pages[k]? = some p0 ∧ DetectedWords lib cfg p0 cs ws ∧
      (pageWords q).Perm (ws.map (toSWord noHyphens k)) ∧
      (∀ (i : ℕ) (w : Word), ws[i]? = some w → w.rank = i) ∧ (∀ w ∈ ws, w.text = (w.chars.map glyphText).flatten) ∧
      (ws.map (·.chars)).flatten = cs.filter fun c => c.markOf.isNone := by
    intro k q hq
    simp only [toSDoc, List.getElem?_mapIdx, Option.map_eq_some_iff] at hq
    obtain ⟨p, hp, rfl⟩ := hq
    have hlen := h.pages.length_eq
    have hlt : k < d0.pages.length := by
      have := (List.getElem?_eq_some_iff.mp hp).1
      omega
    have hk := List.getElem?_eq_getElem hlt
    obtain ⟨p', cs, ws, g1, g2, g3, g4⟩ := pl_page_all hc h k _ hk (hno _ (List.getElem_mem hlt))
    rw [hp] at g1
    cases g1
    refine ⟨_, cs, ws, hk, g2, ?_, g4⟩
    have := g3 noHyphens
    rw [hself] at this
    exact this
  constructor
  · have hlen : (toSDoc d1).pages.length = d0.pages.length := by simp [toSDoc, h.pages.length_eq]
    rw [pl_allLines]
    generalize (toSDoc d1).pages = qs at hpage hlen
    have key : ∀ (l : List Page) (m : List SPage), m.length = l.length →
        (∀ (k : ℕ) (q : SPage), m[k]? = some q → ∃ p0 t, l[k]? = some p0 ∧ VisibleText lib cfg p0 t ∧ (((pageWords q).map (·.text)).flatten).Perm t) →
        ∃ texts, List.Forall₂ (VisibleText lib cfg) l texts ∧ (((m.flatMap pageWords).map (·.text)).flatten).Perm texts.flatten := by
      intro l
      induction l with
      | nil =>
        intro m hm _
        rw [List.length_nil, List.length_eq_zero_iff] at hm
        subst hm
        exact ⟨[], .nil, .refl _⟩
      | cons p l ih =>
        intro m hm hk
        cases m with
        | nil => simp at hm
        | cons q m =>
          obtain ⟨p0, t, g1, g2, g3⟩ := hk 0 q rfl
          simp only [List.getElem?_cons_zero, Option.some.injEq] at g1
          subst g1
          obtain ⟨texts, e1, e2⟩ := ih m (by simpa using hm) fun k q' hq' => by simpa using hk (k + 1) q' (by simpa using hq')
          refine ⟨t :: texts, .cons g2 e1, ?_⟩
          rw [List.flatMap_cons, List.map_append, List.flatten_append, List.flatten_cons]
          exact g3.append e2
    refine key d0.pages qs hlen ?_
    intro k q hq
    obtain ⟨p0, cs, ws, g1, g2, g3, g4, g5, g6⟩ := hpage k q hq
    refine ⟨p0, _, g1, ⟨cs, g2.1, rfl⟩, ?_⟩
    refine ((g3.map _).flatten).trans (List.Perm.of_eq ?_)
    rw [List.map_map]
    have : (ws.map ((fun w => w.text) ∘ toSWord noHyphens k)) = ws.map fun w => (w.chars.map glyphText).flatten :=
      List.map_congr_left fun w hw => g5 w hw
    rw [this, ← g6, ← pl_glyphTexts]
    · clear this g6 g5 g4 g3 g2
      induction ws with
      | nil => rfl
      | cons w ws ih => simp [ih]
    · rw [g6]
      intro c hc'
      exact (List.mem_filter.mp hc').2
  · have hmem : ∀ w ∈ wordsOf (Dehyphenation.allLines (toSDoc d1)), ∃ k v, w = toSWord noHyphens k v ∧ v.text = (v.chars.map glyphText).flatten := by
      intro w hw
      rw [pl_allLines] at hw
      obtain ⟨q, hq, hw⟩ := List.mem_flatMap.mp hw
      obtain ⟨k, hk⟩ := List.getElem?_of_mem hq
      obtain ⟨p0, cs, ws, g1, g2, g3, g4, g5, g6⟩ := hpage k q hk
      obtain ⟨v, hv, rfl⟩ := List.mem_map.mp (g3.subset hw)
      exact ⟨k, v, rfl, g5 v hv⟩
    refine ⟨?_, ?_, ?_, ?_⟩
    · rw [pl_allLines, List.map_flatMap, List.nodup_flatMap]
      constructor
      · intro q hq
        obtain ⟨k, hk⟩ := List.getElem?_of_mem hq
        obtain ⟨p0, cs, ws, g1, g2, g3, g4, g5, g6⟩ := hpage k q hk
        refine (g3.map _).nodup_iff.mpr ?_
        rw [List.map_map]
        have he : ws.map ((fun w => w.uid) ∘ toSWord noHyphens k) = (List.range ws.length).map (Nat.pair k) := by
          apply List.ext_getElem?
          intro i
          rw [List.getElem?_map, List.getElem?_map]
          by_cases hi : i < ws.length
          · rw [List.getElem?_range hi, List.getElem?_eq_getElem hi]
            have := g4 i _ (List.getElem?_eq_getElem hi)
            simp only [Option.map_some, Function.comp_apply, toSWord, wordUid, this, Int.toNat_natCast]
          · rw [List.getElem?_eq_none (by omega), List.getElem?_eq_none (by simp; omega)]; rfl
        rw [he]
        refine List.Nodup.map ?_ List.nodup_range
        intro a b hab
        exact (Nat.pair_eq_pair.mp hab).2
      · rw [List.pairwise_iff_getElem]
        intro i j hi hj hij
        have hu : ∀ (k : ℕ) (hk : k < (toSDoc d1).pages.length), ∀ u ∈ (pageWords (toSDoc d1).pages[k]).map (·.uid), ∃ x, u = Nat.pair k x := by
          intro k hk u hu
          obtain ⟨p0, cs, ws, g1, g2, g3, g4, g5, g6⟩ := hpage k _ (List.getElem?_eq_getElem hk)
          obtain ⟨w, hw, rfl⟩ := List.mem_map.mp hu
          obtain ⟨v, hv, rfl⟩ := List.mem_map.mp (g3.subset hw)
          exact ⟨_, rfl⟩
        intro u h1 h2
        obtain ⟨x, hx⟩ := hu i hi u h1
        obtain ⟨y, hy'⟩ := hu j hj u h2
        rw [hx] at hy'
        have := (Nat.pair_eq_pair.mp hy').1
        omega
    · intro w hw; obtain ⟨k, v, rfl, _⟩ := hmem w hw; rfl
    · intro w hw; obtain ⟨k, v, rfl, _⟩ := hmem w hw; rfl
    · intro w hw; obtain ⟨k, v, rfl, hv⟩ := hmem w hw; exact pl_wordOut k v hv

/-- Joining hyphenated words removes hyphens and nothing else. -/
theorem pl_joinLines (ls : List (List Str)) : ∃ k, ((joinLines ls).flatten ++ List.replicate k '-').Perm ls.flatten.flatten := by
  induction ls using joinLines.induct with
  | case1 => exact ⟨0, by simp [joinLines]⟩
  | case2 l => exact ⟨0, by simp [joinLines]⟩
  | case3 l ls ih =>
    obtain ⟨k, hk⟩ := ih
    refine ⟨k, ?_⟩
    rw [joinLines]
    simpa using hk
  | case4 l v vs ls w hw hh ih =>
    obtain ⟨k, hk⟩ := ih
    refine ⟨k + 1, ?_⟩
    rw [joinLines, hw]
    simp only
    rw [if_pos hh]
    have hl : l = l.dropLast ++ [w] := by
      rw [List.getLast?_eq_some_iff] at hw
      obtain ⟨ys, rfl⟩ := hw
      simp
    have hw' : w = w.dropLast ++ ['-'] := by
      obtain ⟨_, h2⟩ := hh
      rw [List.getLast?_eq_some_iff] at h2
      obtain ⟨ys, rfl⟩ := h2
      simp
    have e1 : ((l :: (v :: vs) :: ls).flatten.flatten) = l.dropLast.flatten ++ (w.dropLast ++ ['-']) ++ (v ++ vs.flatten ++ ls.flatten.flatten) := by
      conv_lhs => rw [hl]
      rw [← hw']
      simp
    rw [e1, List.flatten_append]
    have e2 : (((w.dropLast ++ v) :: vs) :: ls).flatten.flatten = w.dropLast ++ (v ++ vs.flatten ++ ls.flatten.flatten) := by simp
    rw [e2] at hk
    rw [List.replicate_succ', List.append_assoc, ← List.append_assoc _ (List.replicate k '-')]
    refine (List.Perm.append_left _ (hk.append_right ['-'])).trans ?_
    rw [List.append_assoc l.dropLast.flatten, List.append_assoc w.dropLast, List.append_assoc w.dropLast]
    exact List.Perm.append_left _ (List.Perm.append_left _ List.perm_append_comm)
  | case5 l v vs ls w hw hh ih =>
    obtain ⟨k, hk⟩ := ih
    refine ⟨k, ?_⟩
    rw [joinLines, hw]
    simp only
    rw [if_neg hh, List.flatten_append, List.append_assoc, List.flatten_cons, List.flatten_append]
    exact List.Perm.append_left _ hk
  | case6 l v vs ls hw ih =>
    obtain ⟨k, hk⟩ := ih
    refine ⟨k, ?_⟩
    rw [joinLines, hw]
    simp only
    have : l = [] := by simpa using hw
    subst this
    simpa using hk

theorem pl_dehyphenated (d : Document) (hy : d.hyphens = noHyphens) :
    toSDoc { d with hyphens := ((Dehyphenation.allLines (toSDoc d)).foldl Dehyphenation.step (d.hyphens, none)).1 } =
      Dehyphenation.process (toSDoc d) := by
  have hinit : Dehyphenation.initFlags (toSDoc d) = d.hyphens := by
    rw [hy]
    unfold Dehyphenation.initFlags noHyphens
    have hw : ∀ w ∈ (Dehyphenation.allLines (toSDoc d)).flatMap (·.words), w.first = none ∧ w.second = false := by
      intro w hw
      have : w ∈ (toSDoc d).pages.flatMap pageWords := by rw [← pl_allLines]; exact hw
      obtain ⟨q, hq, hw⟩ := List.mem_flatMap.mp this
      obtain ⟨k, hk, rfl⟩ := List.mem_mapIdx.mp hq
      rw [pl_pageWords] at hw
      obtain ⟨v, _, rfl⟩ := List.mem_map.mp hw
      rw [hy]
      exact ⟨rfl, rfl⟩
    congr 1
    · funext u
      cases hf : ((Dehyphenation.allLines (toSDoc d)).flatMap (·.words)).find? fun w => w.uid == u with
      | none => rfl
      | some w => exact (hw w (List.mem_of_find?_eq_some hf)).1
    · funext u
      cases hf : ((Dehyphenation.allLines (toSDoc d)).flatMap (·.words)).find? fun w => w.uid == u with
      | none => rfl
      | some w => exact (hw w (List.mem_of_find?_eq_some hf)).2
  unfold Dehyphenation.process
  simp only
  rw [hinit]
  generalize ((Dehyphenation.allLines (toSDoc d)).foldl Dehyphenation.step (d.hyphens, none)).1 = f
  unfold toSDoc
  simp only
  congr 1
  apply List.ext_getElem?
  intro i
  simp only [List.getElem?_mapIdx, List.getElem?_map]
  cases d.pages[i]? with
  | none => rfl
  | some p =>
    simp only [Option.map_some, toSPage, List.map_map]
    congr 2
    apply List.map_congr_left
    intro b _
    simp only [Function.comp_apply, toSBlock, List.map_map]
    congr 1
    apply List.map_congr_left
    intro i _
    simp only [Function.comp_apply, Dehyphenation.SLine.setFlags, List.map_map]
    congr 1

/-- The assumptions on a run for the theorems about the printed text: the document could be parsed, no stage without which there is no text is skipped, the
operators on a page do not interfere, and the program ends with exit code 0. -/
structure TextRun (lib : Pipeline.Lib) (n : ℕ) (cfg : Config) (d0 d' : Document) : Prop where
  precision : n ≤ 3
  sorts : LibOk lib
  complete : Complete cfg
  parsed : ParsedDoc n d0
  noConflict : ∀ p0 ∈ d0.pages, ∀ cs ws, DetectedWords lib cfg p0 cs ws → NoConflict ws
  run : ∃ (parse : StageConfig → Bool → Document → Outcome Document) (dur : ℕ → ℕ) (d : Document) (ts ts' : Option (List (Str × ℕ))),
    parse cfg.parsing cfg.skipFontFiles d = .ok d0 ∧ Cli.process (env lib none parse dur) cfg ⟨d, ts⟩ = .ok (0, ⟨d', ts'⟩)

/-- **C65 (partial).** A complete run without dehyphenation that prints all roles prints exactly the visible characters of the pages: apart from blanks and line breaks, the plain text consists of the same
characters, each as often as in the PDF; only their order can differ.  Missing: pages on which stacked operators interfere (C25), for which the claim is false. -/
theorem c65_plain_text_partial {lib : Pipeline.Lib} {n : ℕ} {cfg : Config} {d0 d' : Document} (h : TextRun lib n cfg d0 d')
    (hde : ¬ Enabled cfg .dehyphenation) :
    ∃ texts, List.Forall₂ (VisibleText lib cfg) d0.pages texts ∧
      ((Serialize.plainText allRoles (toSDoc d')).filter visible).Perm (texts.flatten.filter visible) := by
  obtain ⟨parse, dur, d, ts, ts', h1, h2⟩ := h.run
  obtain ⟨d1, g1, g2⟩ := pl_result h.precision h.sorts h1 h.parsed h2
  rw [if_neg hde] at g2
  have hy : d1.hyphens = noHyphens := by rw [g1.hyphens, h.parsed.hyphens]; rfl
  obtain ⟨⟨texts, e1, e2⟩, hf⟩ := pl_doc_words h.complete g1 hy h.noConflict
  refine ⟨texts, e1, ?_⟩
  rw [g2, pl_plainText]
  have hpw : printedWords (toSDoc d1) = (wordsOf (Dehyphenation.allLines (toSDoc d1))).map (·.text) := by
    unfold printedWords
    rw [List.filter_eq_self.mpr (by intro w hw; simp [hf.second w hw])]
    exact List.map_congr_left fun w hw => hf.text w hw
  rw [hpw]
  exact e2.filter _

/-- **C65 (partial).** With dehyphenation, the plain text consists of the visible characters of the pages without the hyphens that were removed.  Missing: interfering
operators (C25), and words hyphenated twice (C37). -/
theorem c65_plain_text_dehyphenated_partial {lib : Pipeline.Lib} {n : ℕ} {cfg : Config} {d0 d' : Document} (h : TextRun lib n cfg d0 d')
    (hde : Enabled cfg .dehyphenation)
    (hch : NoChain (((Dehyphenation.allLines (toSDoc d')).map fun l => l.words.map (·.text)).filter fun l => !l.isEmpty)) :
    ∃ texts k, List.Forall₂ (VisibleText lib cfg) d0.pages texts ∧
      ((Serialize.plainText allRoles (toSDoc d')).filter visible ++ List.replicate k '-').Perm (texts.flatten.filter visible) := by
  obtain ⟨parse, dur, d, ts, ts', h1, h2⟩ := h.run
  obtain ⟨d1, g1, g2⟩ := pl_result h.precision h.sorts h1 h.parsed h2
  rw [if_pos hde] at g2
  have hy : d1.hyphens = noHyphens := by rw [g1.hyphens, h.parsed.hyphens]; rfl
  rw [pl_dehyphenated d1 hy] at g2
  obtain ⟨⟨texts, e1, e2⟩, hf⟩ := pl_doc_words h.complete g1 hy h.noConflict
  have hlines : (Dehyphenation.allLines (toSDoc d')).map (fun l => l.words.map (·.text)) =
      (Dehyphenation.allLines (toSDoc d1)).map fun l => l.words.map (·.text) := by
    rw [g2, allLines_process, List.map_map]
    apply List.map_congr_left
    intro l _
    simp [Dehyphenation.SLine.setFlags, Function.comp_def]
  rw [hlines] at hch
  obtain ⟨k, hk⟩ := pl_joinLines ((Dehyphenation.allLines (toSDoc d1)).map fun l => l.words.map (·.text))
  refine ⟨texts, k, e1, ?_⟩
  rw [g2, pl_plainText, c37_printed_words_partial (toSDoc d1) hf hch]
  have e3 : ((Dehyphenation.allLines (toSDoc d1)).map fun l => l.words.map (·.text)).flatten = (wordsOf (Dehyphenation.allLines (toSDoc d1))).map (·.text) := by
    unfold wordsOf
    rw [List.map_flatMap, List.flatMap_def]
  rw [e3] at hk
  have := (hk.trans e2).filter visible
  rw [List.filter_append] at this
  have hhy : (List.replicate k '-').filter visible = List.replicate k '-' :=
    List.filter_eq_self.mpr (by intro c hc; rw [List.eq_of_mem_replicate hc]; decide)
  rwa [hhy] at this

/-- **C65 (limits).** If one of the stages "Detect words", "Segment pages", "Detect lines" and "Detect text blocks" is skipped, the program succeeds and prints an empty
line, whatever text the document has. -/
theorem c65_incomplete_prints_nothing {lib : Pipeline.Lib} {n : ℕ} (hn : n ≤ 3) (hl : LibOk lib) {parse : StageConfig → Bool → Document → Outcome Document}
    {dur : ℕ → ℕ} {cfg : Config} {d d0 d' : Document} {ts ts' : Option (List (Str × ℕ))} (hc : ¬ Complete cfg)
    (hparse : parse cfg.parsing cfg.skipFontFiles d = .ok d0) (hp : ParsedDoc n d0)
    (hrun : Cli.process (env lib none parse dur) cfg ⟨d, ts⟩ = .ok (0, ⟨d', ts'⟩)) (roles : List Role) :
    Serialize.plainText roles (toSDoc d') = ['\n'] := by
  obtain ⟨d1, h1, h2⟩ := pl_result hn hl hparse hp hrun
  have hnil : ∀ p ∈ d1.pages, p.blocks = [] := by
    intro p hp'
    obtain ⟨p0, _, hi⟩ := pl_forall₂_right h1.pages p hp'
    have hb := hi.blocks
    by_cases h4 : Enabled cfg .blocks
    · simp only [ranOf, decide_eq_true h4, if_true] at hb
      have hseg : p.segments.flatMap (·.lines) = [] := by
        by_cases h2' : Enabled cfg .segmentation
        · by_cases h3 : Enabled cfg .lines
          · have h1' : ¬ Enabled cfg .words := fun h1' => hc ⟨h1', h2', h3, h4⟩
            have hw := hi.words
            have hl' := hi.lines
            simp only [ranOf, decide_eq_false h1', Bool.false_eq_true, if_false] at hw
            simp only [ranOf, decide_eq_true h2', decide_eq_true h3, if_true, hw] at hl'
            have h0 := (hl' noHyphens 0).eq_nil
            rw [List.eq_nil_iff_forall_not_mem]
            intro i him
            have hlt : i < d1.lines.length := by
              have : i ∈ List.range d1.lines.length := by
                rw [← h1.ranks]; exact List.mem_flatMap.mpr ⟨p, hp', him⟩
              exact List.mem_range.mp this
            have hne := (h1.good _ (List.getElem_mem hlt)).nonempty
            apply hne
            unfold sWordsAt at h0
            rw [List.map_eq_nil_iff, List.flatMap_eq_nil_iff] at h0
            have := h0 i him
            rw [wordsAt, List.getElem?_eq_getElem hlt] at this
            exact this
          · have hl' := hi.lines
            simp only [ranOf, decide_eq_false h3, Bool.false_eq_true, if_false] at hl'
            rw [List.flatMap_eq_nil_iff]
            exact hl'
        · have hs := hi.segments
          simp only [ranOf, decide_eq_false h2', Bool.false_eq_true, if_false] at hs
          rw [hs]; rfl
      rw [hseg] at hb
      have h0 := hb.1.eq_nil
      rw [List.eq_nil_iff_forall_not_mem]
      intro b hbm
      rw [List.flatMap_eq_nil_iff] at h0
      exact (hb.2 b hbm).2.1 (h0 b hbm)
    · simpa only [ranOf, decide_eq_false h4, Bool.false_eq_true, if_false] using hb
  rw [h2, c34_plain_text_partial]
  have : ((toSDoc { d1 with hyphens := if Enabled cfg .dehyphenation then
      ((Dehyphenation.allLines (toSDoc d1)).foldl Dehyphenation.step (d1.hyphens, none)).1 else d1.hyphens }).pages.flatMap (·.blocks)) = [] := by
    rw [List.flatMap_eq_nil_iff]
    intro q hq
    obtain ⟨k, hk, rfl⟩ := List.mem_mapIdx.mp hq
    simp only [toSPage]
    rw [hnil _ (List.getElem_mem hk)]
    rfl
  rw [this]
  rfl

/-! ### Examples -/

/-- A library for examples: sorts by insertion, a network that knows one role. -/
def refPipeline : Pipeline.Lib where
  lines := refLineLib
  seg := refLib PElem.pos
  order := refLib RElem.pos
  sortTop := insSort topFirst
  compose _ := []
  classes := ⟨fun _ => false, fun _ => false, fun _ => false, fun _ => false, fun _ => false⟩
  wide s := s
  network t _ := .ok (1, List.replicate t.1 (some 1))
  uninitialised := .other

/-- A character for examples: 5 x 10 units. -/
def plGlyph (x y : ℚ) (t : Char) : Glyph :=
  { uid := 0, pos := { pageNum := 1, leftX := x, upperY := y, rightX := x + 5, lowerY := y + 10 }, text := [t], fontName := ['F'], fontSize := 10 }

/-- A page with two lines, the first of which ends in a hyphenated word. -/
def plDoc : Document :=
  { pages := [{ pageNum := 1, width := 200, height := 200, characters :=
      [plGlyph 10 10 'a', plGlyph 30 10 'b', plGlyph 35 10 'c', plGlyph 40 10 '-', plGlyph 10 22 'd', plGlyph 15 22 'e', plGlyph 30 22 'f'] }]
    fontInfos := fun _ => some ⟨400, false⟩ }

/-- All stages. -/
def plConfig : Config := {}


/-- What the program prints for `plDoc`. -/
def plOutput (cfg : Config) : Option Str :=
  match Cli.process (env refPipeline none (fun _ _ _ => .ok plDoc) (fun _ => 0)) cfg ⟨{}, none⟩ with
  | .ok (_, r) => some (Serialize.plainText allRoles (toSDoc r.doc))
  | _ => none

theorem refPipeline_ok : LibOk refPipeline :=
  ⟨⟨insSort_contract _, insSort_contract _, insSort_contract _, insSort_contract _⟩, refLib_contract _, refLib_contract _, insSort_contract _⟩

/-- Coordinates that are whole numbers are rounded. -/
theorem pl_int_rounded (z : ℤ) : ∃ x, ((z : ℤ) : ℚ) = roundTo x 1 := by
  refine ⟨z, ?_⟩
  rw [roundTo_eq]
  have : ((z : ℚ) * 10 ^ 1) = ((z * 10 : ℤ) : ℚ) := by push_cast; ring
  rw [this, stdRound_int]; push_cast; ring

theorem plGlyph_good (x y : ℤ) (t : Char) (hx : 0 < x ∧ x < 1000) (hy : 0 < y ∧ y < 1000) : GoodGlyph 1 (plGlyph x y t) := by
  have hb : ∀ z : ℤ, 0 < z → z < 2000 → OnPage (z : ℚ) := by
    intro z h1 h2
    have h1' : (1 : ℚ) ≤ z := by exact_mod_cast h1
    have h2' : (z : ℚ) ≤ 2000 := by exact_mod_cast h2.le
    constructor
    · refine le_trans ?_ h1'
      decide +kernel
    · refine le_trans h2' ?_
      decide +kernel
  have e1 : ((x : ℚ) + 5) = ((x + 5 : ℤ) : ℚ) := by push_cast; ring
  have e2 : ((y : ℚ) + 10) = ((y + 10 : ℤ) : ℚ) := by push_cast; ring
  unfold plGlyph
  rw [e1, e2]
  refine ⟨⟨⟨pl_int_rounded _, pl_int_rounded _, pl_int_rounded _, pl_int_rounded _⟩, hb _ ?_ ?_, hb _ ?_ ?_, hb _ ?_ ?_, hb _ ?_ ?_⟩, ?_⟩
  any_goals omega
  show dblMin + tol < 10
  decide +kernel

theorem plDoc_parsed : ParsedDoc 1 plDoc := by
  refine ⟨?_, ?_, ?_, ?_, ?_, rfl, rfl⟩
  · intro p hp c hc
    simp only [plDoc, List.mem_singleton] at hp
    subst hp
    simp only [List.mem_cons, List.not_mem_nil, or_false] at hc
    rcases hc with rfl | rfl | rfl | rfl | rfl | rfl | rfl
    · exact plGlyph_good 10 10 _ (by norm_num) (by norm_num)
    · exact plGlyph_good 30 10 _ (by norm_num) (by norm_num)
    · exact plGlyph_good 35 10 _ (by norm_num) (by norm_num)
    · exact plGlyph_good 40 10 _ (by norm_num) (by norm_num)
    · exact plGlyph_good 10 22 _ (by norm_num) (by norm_num)
    · exact plGlyph_good 15 22 _ (by norm_num) (by norm_num)
    · exact plGlyph_good 30 22 _ (by norm_num) (by norm_num)
  all_goals
    intro p hp
    simp only [plDoc, List.mem_singleton] at hp
    subst hp
    simp

/-- Word detection finds no operator. -/
def noOperators (o : Outcome (List Word × Active)) : Bool :=
  match o with
  | .ok (ws, _) => ws.all fun w => !isBase w
  | _ => true

theorem noOperators_spec {ws : List Word} {a : Active} (h : noOperators (.ok (ws, a)) = true) : NoConflict ws := by
  have hno : ∀ i j, ¬ Claims ws i j := by
    rintro i j ⟨w, h1, h2, _⟩
    have := List.all_eq_true.mp h w (List.mem_of_getElem? h1)
    rw [(isBase_iff w).mpr h2] at this
    cases this
  exact ⟨fun i i' j h _ => absurd h (hno i j), fun i j _ h => absurd h (hno i j)⟩

/-- The assumptions of the theorems are met by `plDoc`. -/
theorem plDoc_run : ∃ d', TextRun refPipeline 1 plConfig plDoc d' := by
  have hrun : ∃ d' ts', Cli.process (env refPipeline none (fun _ _ _ => .ok plDoc) (fun _ => 0)) plConfig ⟨{}, none⟩ = .ok (0, ⟨d', ts'⟩) := by
    rcases pl_process (by decide) refPipeline_ok (fun _ _ _ => .ok plDoc) (fun _ => 0) plConfig {} plDoc none rfl plDoc_parsed with
      ⟨d', ts', h, _⟩ | ⟨_, _, _, ⟨m, _, h⟩ | ⟨m, _, h⟩⟩
    · exact ⟨d', ts', h⟩
    · have : (Cli.process (env refPipeline none (fun _ _ _ => .ok plDoc) (fun _ => 0)) plConfig ⟨{}, none⟩).isOk = true := by decide +kernel
      rw [h] at this; cases this
    · have : (Cli.process (env refPipeline none (fun _ _ _ => .ok plDoc) (fun _ => 0)) plConfig ⟨{}, none⟩).isOk = true := by decide +kernel
      rw [h] at this; cases this
  obtain ⟨d', ts', hrun⟩ := hrun
  refine ⟨d', by decide, refPipeline_ok, ⟨rfl, rfl, rfl, rfl⟩, plDoc_parsed, ?_, ⟨_, _, _, _, _, rfl, hrun⟩⟩
  intro p0 hp0 cs ws hd
  simp only [plDoc, List.mem_singleton] at hp0
  subst hp0
  obtain ⟨h1, a, h2⟩ := hd
  rw [if_pos (by rfl)] at h1
  have key : ∀ cs', Diacritics.processPage refPipeline.compose (plDoc.pages.flatMap (·.characters)) = .ok cs' →
      noOperators (detectWords refPipeline.lines.hash (Active.reset 1) 1 cs') = true := by
    have : (match Diacritics.processPage refPipeline.compose (plDoc.pages.flatMap (·.characters)) with
      | .ok cs' => noOperators (detectWords refPipeline.lines.hash (Active.reset 1) 1 cs')
      | _ => true) = true := by decide +kernel
    intro cs' hcs
    rw [hcs] at this
    exact this
  have := key cs h1
  rw [h2] at this
  exact noOperators_spec this

example : plOutput plConfig = some "a bcde f\n".toList := by decide +kernel
example : plOutput { plConfig with stage := fun st => { disabled := decide (st = .dehyphenation) } } = some "a bc- de f\n".toList := by decide +kernel
example : plOutput { plConfig with stage := fun st => { disabled := decide (st = .segmentation) } } = some "\n".toList := by decide +kernel

end Verif.Props
