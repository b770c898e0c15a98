import Verif.Spec.Formats
import Verif.Props.Append
import Verif.Props.Jsonl

/-!
# C84: the output formats tell the same text
-/

namespace Verif.Props

open Verif.Math Verif.Elements Verif.Spec Verif.Words Verif.TextLines Verif.Pipeline Verif.Serialize
open Verif.ReadingOrder (RElem Role)
open Verif.Cli (Stage StageConfig Env Config)

variable {lib : Pipeline.Lib} {n : ℕ} {cfg : Config} {d0 d d' : Document}

/-- The text of a block is the texts of its words, joined by single spaces. -/
def BlockTexts (d : Document) : Prop := ∀ p ∈ d.pages, ∀ b ∈ p.blocks, b.block.text = [' '].intercalate ((blockWords d b).map (·.text))

theorem fo_blocks {m w s l : Bool} (h : DocInv lib n ⟨m, w, s, l, false⟩ d0 d) {m' : Document} (hm : blocksStage lib d = .ok m') : BlockTexts m' := by
  have hflat : (d.pages.map fun p => p.segments.map (·.lines)).flatten.flatten = List.range d.lines.length := by
    rw [← h.ranks]
    generalize d.pages = ps
    induction ps with
    | nil => rfl
    | cons p ps ih =>
      rw [List.map_cons, List.flatten_cons, List.flatten_append, ih, List.flatMap_cons, List.flatMap_def (l := p.segments)]
  obtain ⟨s1, s', bss, h1, h2, _⟩ := process_spec lib.lines.hash (blocksDoc lib d) (blocksState d)
    (d.pages.map fun p => p.segments.map (·.lines)) (by rw [hflat]; exact List.nodup_range)
  have e : m' = { d with pages := List.zipWith (fun (p : Page) bs => { p with blocks := p.blocks ++ bs.map fun b => (⟨b, lib.uninitialised⟩ : TextBlock) }) d.pages bss } := by
    unfold blocksStage at hm
    rw [h1] at hm
    exact (Outcome.ok.inj hm).symm
  subst e
  intro p hp b hb
  obtain ⟨k, hk⟩ := List.getElem?_of_mem hp
  simp only [List.getElem?_zipWith] at hk
  cases hq : d.pages[k]? with
  | none => rw [hq] at hk; cases hk
  | some q =>
    cases hbs : bss[k]? with
    | none => rw [hq, hbs] at hk; cases hk
    | some bs =>
      rw [hq, hbs] at hk
      simp only [Option.some.injEq] at hk
      subst hk
      obtain ⟨p0, _, hi⟩ := pl_forall₂_right h.pages q (List.mem_of_getElem? hq)
      have hbl : q.blocks = [] := by simpa using hi.blocks
      simp only [hbl, List.nil_append] at hb
      obtain ⟨x, hx, rfl⟩ := List.mem_map.mp hb
      obtain ⟨page, hpage, pbs, hpp, hf⟩ := forall₂_mem_right h2 (List.mem_of_getElem? hbs)
      have hm := hf.made x hx
      have hxl : ∀ i ∈ x.lines, i < d.lines.length := by
        intro i hi'
        have : i ∈ page.flatten := by
          rw [← prelim_cover hpp, ← hf.cover]
          exact List.mem_flatMap.mpr ⟨x, hx, hi'⟩
        have h4 : i ∈ (d.pages.map fun p => p.segments.map (·.lines)).flatten.flatten := by
          rw [List.flatten_flatten]
          exact List.mem_flatten.mpr ⟨_, List.mem_map_of_mem hpage, this⟩
        rw [hflat] at h4
        exact List.mem_range.mp h4
      have hline : ∀ i ∈ x.lines, ((blocksDoc lib d).line i).words = ((d.lines[i]?).map fun l => l.line.words).getD [] := by
        intro i hi'
        simp only [blocksDoc, List.getElem?_eq_getElem (hxl i hi'), Option.map_some, Option.getD_some]
      show x.text = _
      rw [hm.text, blockText_eq]
      · congr 2
        unfold blockWords
        simp only
        rw [List.flatMap_map, List.flatMap_def, List.flatMap_def]
        congr 1
        exact List.map_congr_left hline
      · intro l hl
        obtain ⟨i, hi', rfl⟩ := List.mem_map.mp hl
        rw [hline i hi', List.getElem?_eq_getElem (hxl i hi')]
        exact (h.good _ (List.getElem_mem _)).nonempty

theorem fo_order (hn : n ≤ 3) (hl : LibOk lib) {R : Ran} (hbox : BoxesOk n d0) (h : DocInv lib n R d0 d) (ht : BlockTexts d) {m' : Document} (hm : orderStage lib d = .ok m') :
    BlockTexts m' := by
  unfold orderStage at hm
  cases hr : predictRoles lib d with
  | throw e => rw [hr] at hm; cases hm
  | ub e => rw [hr] at hm; cases hm
  | ok rs =>
    rw [hr] at hm
    have e := (Outcome.ok.inj hm).symm
    subst e
    intro p hp b hb
    obtain ⟨q, hq, rfl⟩ := List.mem_map.mp hp
    obtain ⟨q0, hq0, hro⟩ := pl_forall₂_right (pl_assignRoles d.pages rs (pl_predictRoles_length hr)) q hq
    obtain ⟨p0, hp0, hi⟩ := pl_forall₂_right h.pages q0 hq0
    have hqf : q.figures = q0.figures ∧ q.graphics = q0.graphics ∧ q.shapes = q0.shapes := by
      rw [hro.same]; exact ⟨rfl, rfl, rfl⟩
    have hblk : ∀ x ∈ q.blocks, ∃ y ∈ q0.blocks, y.block = x.block := by
      intro x hx
      have : x.block ∈ q0.blocks.map (·.block) := by rw [← hro.blocks]; exact List.mem_map.mpr ⟨x, hx, rfl⟩
      obtain ⟨y, hy, e⟩ := List.mem_map.mp this
      exact ⟨y, hy, e⟩
    have hbb : ∀ y ∈ q0.blocks, PageBox n y.block.pos := by
      intro y hy
      have := hi.blocks
      by_cases hR : R.blocks = true
      · rw [if_pos hR] at this; exact (this.2 y hy).1
      · rw [if_neg hR] at this; rw [this] at hy; cases hy
    have hperm := pl_orderPage hn hl d.stats q (fun x hx => by obtain ⟨y, hy, e⟩ := hblk x hx; rw [← e]; exact hbb y hy) (by
      rw [hqf.1, hqf.2.1, hqf.2.2, hi.figures, hi.graphics, hi.shapes]; exact hbox p0 hp0)
    obtain ⟨y, hy, e⟩ := hblk b (hperm.subset hb)
    have := ht q0 hq0 y hy
    unfold blockWords at this ⊢
    rw [e] at this
    exact this

/-- Block texts of the finished document. -/
theorem fo_texts (hn : n ≤ 3) (hl : LibOk lib) (hp : ParsedDoc n d0) {e : ℕ → Document} (h : TraceOf lib cfg d0 d' e) : BlockTexts d' := by
  have hi := tr_inv hn hl hp h
  obtain ⟨_, _, q1, q2, _⟩ := ap_late h
  have h9 : BlockTexts (e 9) := by
    have hd := h.blocks
    unfold Did at hd
    by_cases hE : Enabled cfg .blocks
    · rw [if_pos hE] at hd
      obtain ⟨m, g1, g2⟩ := hd
      rw [if_neg (by decide)] at g2
      rw [g2]
      exact fo_blocks hi.i8 g1
    · intro p hp b hb
      obtain ⟨p0, _, hpi⟩ := pl_forall₂_right hi.i9.pages p hp
      have := hpi.blocks
      rw [if_neg (by simpa [ranOf] using hE)] at this
      rw [this] at hb; cases hb
  have h10 : BlockTexts (e 10) := by
    have hd := h.readingOrder
    unfold Did at hd
    by_cases hE : Enabled cfg .readingOrder
    · rw [if_pos hE] at hd
      obtain ⟨m, g1, g2⟩ := hd
      rw [if_neg (by decide)] at g2
      rw [g2]
      exact fo_order hn hl hp.boxes hi.i9 h9 g1
    · rw [if_neg hE] at hd
      rw [hd]; exact h9
  rw [h.result]
  intro p hp b hb
  unfold linesFromBlocks at hp
  simp only at hp
  rw [q1] at hp
  obtain ⟨q, hq, rfl⟩ := List.mem_map.mp hp
  have := h10 q hq b hb
  unfold blockWords at this ⊢
  show _ = [' '].intercalate (List.map _ (List.flatMap (fun i => (Option.map _ (e 11).lines[i]?).getD []) _))
  rw [q2]
  exact this

/-- What a character shows. -/
def shownText (c : SChar) : Text.Str := if c.isBase then c.withMark else c.text

/-- The text of a word is what its characters show; none of them is a mark that was merged with a character. -/
structure WordText (w : SWord) : Prop where
  text : w.text = w.chars.flatMap shownText
  marks : ∀ c ∈ w.chars, c.isMark = false

theorem fo_page_words {R : Ran} {ls : List TextLine} {p0 p : Page} (hi : PageInv lib n R ls p0 p) (f : Dehyphenation.Flags) (k : ℕ) :
    ∀ w ∈ sWordsAt f k ls (p.blocks.flatMap (·.block.lines)), WordText w := by
  intro w hw
  have hb := hi.blocks
  by_cases hB : R.blocks = true
  swap
  · rw [if_neg hB] at hb; rw [hb] at hw; cases hw
  rw [if_pos hB] at hb
  have hw : w ∈ sWordsAt f k ls (p.segments.flatMap (·.lines)) := ((hb.1.flatMap_right _).map _).subset hw
  have hl := hi.lines
  by_cases hL : R.lines = true
  swap
  · rw [if_neg hL] at hl
    have : p.segments.flatMap (·.lines) = [] := List.flatMap_eq_nil_iff.mpr hl
    rw [this] at hw; cases hw
  rw [if_pos hL] at hl
  have hw := (hl f k).subset hw
  by_cases hS : R.segments = true
  swap
  · rw [if_neg hS] at hw; cases hw
  rw [if_pos hS] at hw
  obtain ⟨x, hx, rfl⟩ := List.mem_map.mp hw
  obtain ⟨y, hy, hxy⟩ := List.mem_flatMap.mp hx
  have hx := pl_wordGroup_mem hy hxy
  have hW := hi.words
  by_cases hWo : R.words = true
  swap
  · rw [if_neg hWo] at hW; rw [hW] at hx; cases hx
  rw [if_pos hWo] at hW
  obtain ⟨ws, a, h1, h2⟩ := hW
  obtain ⟨ws', a', q1, q2, q3, q4, q5⟩ := pl_words lib.lines.hash (Active.reset p.pageNum) p.pageNum p.characters hi.glyphs
  rw [h1] at q1
  simp only [Outcome.ok.injEq, Prod.mk.injEq] at q1
  obtain ⟨rfl, rfl⟩ := q1
  rw [h2] at hx
  obtain ⟨v, hv, ps, po, rfl⟩ := pl_merge_mem ws q2 hx
  have hmark : ∀ g ∈ v.chars, g.markOf = none := by
    intro g hg
    have : g ∈ (ws.map (·.chars)).flatten := List.mem_flatten.mpr ⟨_, List.mem_map.mpr ⟨v, hv, rfl⟩, hg⟩
    rw [q3] at this
    have := (List.mem_filter.mp this).2
    cases hm : g.markOf with
    | none => rfl
    | some _ => rw [hm] at this; cases this
  refine ⟨?_, ?_⟩
  · show v.text = (v.chars.map toSChar).flatMap shownText
    rw [(q5 v hv).2.2.2.1, List.flatMap_map, List.flatMap_def]
    congr 1
    apply List.map_congr_left
    intro c hc
    unfold glyphText shownText toSChar
    simp [hmark c hc]
  · intro c hc
    obtain ⟨g, hg, rfl⟩ := List.mem_map.mp hc
    show g.markOf.isSome = false
    rw [hmark g hg]; rfl

/-- The finished document for the serializers. -/
structure SameTexts (doc : SDoc) : Prop where
  blocks : ∀ p ∈ doc.pages, ∀ b ∈ p.blocks, b.text = [' '].intercalate ((b.lines.flatMap (·.words)).map (·.text))
  words : ∀ p ∈ doc.pages, ∀ b ∈ p.blocks, ∀ l ∈ b.lines, ∀ w ∈ l.words, WordText w

theorem fo_same (hn : n ≤ 3) (hl : LibOk lib) (hp : ParsedDoc n d0) {e : ℕ → Document} (h : TraceOf lib cfg d0 d' e) : SameTexts (toSDoc d') := by
  have hi := tr_inv hn hl hp h
  obtain ⟨_, _, q1, q2, _⟩ := ap_late h
  refine ⟨?_, ?_⟩
  · intro p hp' b hb
    obtain ⟨k, hk, rfl⟩ := List.mem_mapIdx.mp hp'
    obtain ⟨x, hx, rfl⟩ := List.mem_map.mp hb
    have := fo_texts hn hl hp h _ (List.getElem_mem hk) x hx
    show x.block.text = _
    rw [this]
    congr 1
    unfold toSBlock blockWords
    simp only [List.flatMap_map, List.map_flatMap, List.map_map]
    rfl
  · intro p hp' b hb l hl' w hw
    obtain ⟨k, hk, rfl⟩ := List.mem_mapIdx.mp hp'
    have hres : d'.pages = (e 10).pages.map fun p => { p with textLines := p.blocks.flatMap (·.block.lines) } := by
      rw [h.result]; unfold linesFromBlocks; simp only; rw [q1]
    have hline : d'.lines = (e 10).lines := by rw [h.result]; exact q2
    have hmem := List.getElem_mem hk
    generalize d'.pages[k] = q at *
    rw [hres] at hmem
    obtain ⟨q', hq', rfl⟩ := List.mem_map.mp hmem
    obtain ⟨p0, _, hpi⟩ := pl_forall₂_right hi.i10.pages q' hq'
    refine fo_page_words hpi d'.hyphens k w ?_
    have : w ∈ pageWords (toSPage d' k { q' with textLines := q'.blocks.flatMap (·.block.lines) }) := by
      unfold pageWords wordsOf
      exact List.mem_flatMap.mpr ⟨l, List.mem_flatMap.mpr ⟨b, hb, hl'⟩, hw⟩
    rw [pl_pageWords, hline] at this
    exact this

/-! ## No hyphens, no joined words -/

/-- The line does not end with a hyphenated word. -/
def SmoothEnd (l : SLine) : Prop := ∀ w, l.words.getLast? = some w → ¬ (2 ≤ w.text.length ∧ w.text.getLast? = some '-')

theorem fo_fold (ls : List SLine) : ∀ (f : Dehyphenation.Flags) (prev : Option SLine), (∀ l ∈ ls, SmoothEnd l) → (∀ l, prev = some l → SmoothEnd l) →
    (ls.foldl Dehyphenation.step (f, prev)).1 = f := by
  induction ls with
  | nil => intro f prev _ _; rfl
  | cons l ls ih =>
    intro f prev h1 h2
    rw [List.foldl_cons]
    have hs : Dehyphenation.step (f, prev) l = (f, prev) ∨ Dehyphenation.step (f, prev) l = (f, some l) := by
      unfold Dehyphenation.step
      cases l.words with
      | nil => exact .inl rfl
      | cons w ws =>
        cases prev with
        | none => exact .inr rfl
        | some q =>
          simp only
          cases hq : q.words.getLast? with
          | none => exact .inr rfl
          | some x =>
            simp only
            have : Dehyphenation.mergedText x.text w.text = none := by
              unfold Dehyphenation.mergedText
              rw [if_neg]
              rintro ⟨a, b⟩
              exact h2 q rfl x hq ⟨a, b⟩
            rw [this]
            exact .inr rfl
    rcases hs with hs | hs
    · rw [hs]; exact ih f prev (fun x hx => h1 x (by simp [hx])) h2
    · rw [hs]; exact ih f (some l) (fun x hx => h1 x (by simp [hx])) fun x hx => by cases hx; exact h1 l (by simp)

theorem fo_smooth_iff (d : Document) : NoHyphenAtLineEnd d ↔ ∀ p ∈ d.pages, ∀ b ∈ p.blocks, ∀ i ∈ b.block.lines,
    ∀ w, (((d.lines[i]?).map fun l => l.line.words).getD []).getLast? = some w → ¬ (2 ≤ w.text.length ∧ w.text.getLast? = some '-') := by
  unfold NoHyphenAtLineEnd
  constructor
  · intro h p hp b hb i hi w hw
    obtain ⟨k, hk⟩ := List.getElem?_of_mem hp
    have hp' : toSPage d k p ∈ (toSDoc d).pages := by
      apply List.mem_of_getElem? (i := k)
      show (d.pages.mapIdx (toSPage d))[k]? = _
      rw [List.getElem?_mapIdx, hk]; rfl
    refine h _ hp' _ (List.mem_map.mpr ⟨b, hb, rfl⟩) _ (List.mem_map.mpr ⟨i, hi, rfl⟩) (toSWord d.hyphens k w) ?_
    simp only
    rw [List.getLast?_map, hw]; rfl
  · intro h p hp b hb l hl w hw
    obtain ⟨k, hk, rfl⟩ := List.mem_mapIdx.mp hp
    obtain ⟨x, hx, rfl⟩ := List.mem_map.mp hb
    obtain ⟨i, hi, rfl⟩ := List.mem_map.mp hl
    simp only [List.getLast?_map, Option.map_eq_some_iff] at hw
    obtain ⟨v, hv, rfl⟩ := hw
    exact h _ (List.getElem_mem hk) x hx i hi v hv

theorem fo_flags (hn : n ≤ 3) (hl : LibOk lib) (hp : ParsedDoc n d0) {e : ℕ → Document} (h : TraceOf lib cfg d0 d' e) (hno : Enabled cfg .dehyphenation → NoHyphenAtLineEnd d') :
    d'.hyphens = ⟨fun _ => none, fun _ => false⟩ := by
  have hi := tr_inv hn hl hp h
  obtain ⟨_, _, q1, q2, _⟩ := ap_late h
  have hy : (e 10).hyphens = ⟨fun _ => none, fun _ => false⟩ := by rw [hi.i10.hyphens, hp.hyphens]
  have hd := h.dehyphenation
  have hr : d'.hyphens = (e 11).hyphens := by rw [h.result]; rfl
  rw [hr]
  unfold Did at hd
  by_cases hE : Enabled cfg .dehyphenation
  · rw [if_pos hE] at hd
    obtain ⟨m, g1, g2⟩ := hd
    rw [if_neg (by decide)] at g2
    have g1 : m = _ := (Outcome.ok.inj g1).symm
    rw [g2, g1]
    simp only
    rw [fo_fold, hy]
    · have hs : NoHyphenAtLineEnd (e 10) := by
        have := (fo_smooth_iff _).mp (hno hE)
        rw [fo_smooth_iff]
        intro p hp' b hb i hi'
        have hline : d'.lines = (e 10).lines := by rw [h.result]; exact q2
        rw [hline] at this
        refine this { p with textLines := p.blocks.flatMap (·.block.lines) } ?_ b hb i hi'
        rw [h.result]
        unfold linesFromBlocks
        simp only
        rw [q1]
        exact List.mem_map.mpr ⟨p, hp', rfl⟩
      intro l hl'
      unfold Dehyphenation.allLines at hl'
      obtain ⟨p, hp', hl'⟩ := List.mem_flatMap.mp hl'
      obtain ⟨b, hb, hl'⟩ := List.mem_flatMap.mp hl'
      exact hs p hp' b hb l hl'
    · intro l hl'; cases hl'
  · rw [if_neg hE] at hd
    rw [hd, hy]

/-! ## The texts in the JSON objects -/

theorem fo_blockJson (P : Printer) (b : SBlock) : textMember (blockJson P b) = some b.text := by
  simp [textMember, blockJson, posMembers]

theorem fo_wordJson (P : Printer) (b : SBlock) (w : SWord) : textMember (wordJson P b w) = some w.text := by
  simp [textMember, wordJson, posMembers]

theorem fo_charJson (P : Printer) (b : SBlock) (w : SWord) (c : SChar) (f : FontFlags) : textMember (charJson P b w c f) = some (shownText c) := by
  simp [textMember, charJson, posMembers, shownText]

theorem fo_chosen {roles : List Role} {doc : SDoc} {b : SBlock} (hb : b ∈ chosenBlocks roles doc) : ∃ p ∈ doc.pages, b ∈ p.blocks := by
  unfold chosenBlocks at hb
  exact List.mem_flatMap.mp (List.mem_filter.mp hb).1

/-- The premises of C84: a run on a parsed document that ended well. -/
structure EndedRun (lib : Pipeline.Lib) (n : ℕ) (cfg : Config) (d0 d : Document) : Prop where
  precision : n ≤ 3
  sorts : LibOk lib
  parsed : ParsedDoc n d0
  run : RunOf lib cfg d0 d

theorem EndedRun.trace (h : EndedRun lib n cfg d0 d) : ∃ e, TraceOf lib cfg d0 d e := by
  obtain ⟨parse, dur, a, ts, ts', h1, h2⟩ := h.run
  exact tr_trace h1 h2

theorem fo_noFlags (h : EndedRun lib n cfg d0 d) (hno : Enabled cfg .dehyphenation → NoHyphenAtLineEnd d) :
    ∀ p ∈ (toSDoc d).pages, ∀ b ∈ p.blocks, ∀ l ∈ b.lines, ∀ w ∈ l.words, w.first = none ∧ w.second = false := by
  obtain ⟨e, he⟩ := h.trace
  have hf := fo_flags h.precision h.sorts h.parsed he hno
  intro p hp b hb l hl w hw
  obtain ⟨k, hk, rfl⟩ := List.mem_mapIdx.mp hp
  obtain ⟨x, hx, rfl⟩ := List.mem_map.mp hb
  obtain ⟨i, hi, rfl⟩ := List.mem_map.mp hl
  obtain ⟨v, hv, rfl⟩ := List.mem_map.mp hw
  unfold toSWord
  rw [hf]
  exact ⟨rfl, rfl⟩

/-- C84 (paragraphs): the paragraphs of the plain text are exactly the texts of the blocks in the JSONL output, in the same order, for every selection of roles, if no word was
joined at a line break. -/
theorem c84_paragraphs_partial (h : EndedRun lib n cfg d0 d) (hno : Enabled cfg .dehyphenation → NoHyphenAtLineEnd d) {P : Printer} (hP : PrinterContract P) (hc : CleanDoc (toSDoc d))
    (roles : List Role) :
    ∃ out vals texts, jsonl P roles (toSDoc d) [.textBlocks] = .ok out ∧ IsJsonLines out vals ∧ vals.map textMember = texts.map some ∧
      plainText roles (toSDoc d) = ['\n', '\n'].intercalate texts ++ ['\n'] := by
  obtain ⟨e, he⟩ := h.trace
  have hs := fo_same h.precision h.sorts h.parsed he
  have hf := fo_noFlags h hno
  obtain ⟨out, h1, h2⟩ := c36_json_lines_partial hP roles hc [.textBlocks] (by simp)
  refine ⟨out, _, (chosenBlocks roles (toSDoc d)).map (·.text), h1, h2, ?_, ?_⟩
  · simp only [List.flatMap_cons, List.flatMap_nil, List.append_nil, unitJson, List.map_map]
    exact List.map_congr_left fun b _ => fo_blockJson P b
  · rw [c34_plain_text_partial]
    congr 2
    apply List.map_congr_left
    intro b hb
    obtain ⟨p, hp, hb⟩ := fo_chosen hb
    rw [hs.blocks p hp b hb]
    unfold printedBlock
    have hw : ∀ w ∈ b.lines.flatMap (·.words), (w.first = none ∧ w.second = false) ∧ WordText w := by
      intro w hw
      obtain ⟨l, hl, hw⟩ := List.mem_flatMap.mp hw
      exact ⟨hf p hp b hb l hl w hw, hs.words p hp b hb l hl w hw⟩
    rw [List.filter_eq_self.mpr fun w hw' => by simp [(hw w hw').1.2]]
    congr 1
    apply List.map_congr_left
    intro w hw'
    obtain ⟨⟨g1, _⟩, g2⟩ := hw w hw'
    rw [g1, g2.text, Option.getD_none]
    rw [List.filter_eq_self.mpr fun c hc' => by simp [g2.marks c hc']]
    rfl

/-- C84 (words): the text of every block in the JSONL output is the texts of its words in the JSONL output, joined by single spaces. -/
theorem c84_words (h : EndedRun lib n cfg d0 d) {P : Printer} (hP : PrinterContract P) (hc : CleanDoc (toSDoc d)) (roles : List Role) :
    ∃ outB valsB outW valsW, ∃ groups : List (List Text.Str), jsonl P roles (toSDoc d) [.textBlocks] = .ok outB ∧ IsJsonLines outB valsB ∧
      jsonl P roles (toSDoc d) [.words] = .ok outW ∧ IsJsonLines outW valsW ∧
      valsW.map textMember = groups.flatten.map some ∧ valsB.map textMember = groups.map fun g => some ([' '].intercalate g) := by
  obtain ⟨e, he⟩ := h.trace
  have hs := fo_same h.precision h.sorts h.parsed he
  obtain ⟨outB, b1, b2⟩ := c36_json_lines_partial hP roles hc [.textBlocks] (by simp)
  obtain ⟨outW, w1, w2⟩ := c36_json_lines_partial hP roles hc [.words] (by simp)
  refine ⟨outB, _, outW, _, (chosenBlocks roles (toSDoc d)).map fun b => (b.lines.flatMap (·.words)).map (·.text), b1, b2, w1, w2, ?_, ?_⟩
  · simp only [List.flatMap_cons, List.flatMap_nil, List.append_nil, unitJson, List.map_flatMap, List.flatten_eq_flatMap, List.flatMap_map, id, List.map_map]
    rw [List.flatMap_def, List.flatMap_def]
    congr 1
  · simp only [List.flatMap_cons, List.flatMap_nil, List.append_nil, unitJson, List.map_map]
    apply List.map_congr_left
    intro b hb
    obtain ⟨p, hp, hb⟩ := fo_chosen hb
    show textMember (blockJson P b) = _
    rw [fo_blockJson, hs.blocks p hp b hb]
    rfl

/-- C84 (characters): the text of every word in the JSONL output is the texts of its characters in the JSONL output, one after the other, if the fonts of all characters are known. -/
theorem c84_characters (h : EndedRun lib n cfg d0 d) {P : Printer} (hP : PrinterContract P) (hc : CleanDoc (toSDoc d)) (roles : List Role) (hu : ¬ UnknownFont roles (toSDoc d)) :
    ∃ outW valsW outC valsC, ∃ groups : List (List Text.Str), jsonl P roles (toSDoc d) [.words] = .ok outW ∧ IsJsonLines outW valsW ∧
      jsonl P roles (toSDoc d) [.characters] = .ok outC ∧ IsJsonLines outC valsC ∧
      valsC.map textMember = groups.flatten.map some ∧ valsW.map textMember = groups.map fun g => some g.flatten := by
  obtain ⟨e, he⟩ := h.trace
  have hs := fo_same h.precision h.sorts h.parsed he
  obtain ⟨outW, w1, w2⟩ := c36_json_lines_partial hP roles hc [.words] (by simp)
  obtain ⟨outC, c1, c2⟩ := c36_json_lines_partial hP roles hc [.characters] (fun _ => hu)
  refine ⟨outW, _, outC, _, (chosenBlocks roles (toSDoc d)).flatMap fun b => (b.lines.flatMap (·.words)).map fun w => w.chars.map shownText, w1, w2, c1, c2, ?_, ?_⟩
  · simp only [List.flatMap_cons, List.flatMap_nil, List.append_nil, unitJson, List.map_flatMap, List.flatten_eq_flatMap, List.flatMap_assoc, id, List.map_map, List.flatMap_map]
    rw [List.flatMap_def, List.flatMap_def]
    congr 1
    apply List.map_congr_left
    intro b hb
    obtain ⟨p, hp, hb⟩ := fo_chosen hb
    rw [List.flatMap_def, List.flatMap_def]
    congr 1
    apply List.map_congr_left
    intro l hl
    rw [List.flatMap_def, List.flatMap_def]
    congr 1
    apply List.map_congr_left
    intro w hw
    rw [List.filter_eq_self.mpr fun c hc' => by simp [(hs.words p hp b hb l hl w hw).marks c hc']]
    exact List.map_congr_left fun c _ => fo_charJson P b w c _
  · simp only [List.flatMap_cons, List.flatMap_nil, List.append_nil, unitJson, List.map_flatMap, List.map_map]
    rw [List.flatMap_def, List.flatMap_def]
    congr 1
    apply List.map_congr_left
    intro b hb
    obtain ⟨p, hp, hb⟩ := fo_chosen hb
    rw [List.flatMap_def, List.flatMap_def]
    congr 1
    apply List.map_congr_left
    intro l hl
    apply List.map_congr_left
    intro w hw
    show textMember (wordJson P b w) = _
    rw [fo_wordJson, (hs.words p hp b hb l hl w hw).text, List.flatMap_def]
    rfl

/-! ## Examples and limits -/

/-- The premises are met: a page with the rows `ab` and `cd`. -/
theorem fo_premises : ∃ d, EndedRun refPipeline 1 plConfig (apDoc [apTwo 1]) d ∧ NoHyphenAtLineEnd d ∧ CleanDoc (toSDoc d) ∧ (∀ roles, ¬ UnknownFont roles (toSDoc d)) ∧
    plainText allRoles (toSDoc d) = "ab cd\n".toList := by
  have key : (match apRun (apDoc [apTwo 1]) with
      | .ok (c, r) => (decide (c = 0) && decide (∀ p ∈ (toSDoc r.doc).pages, ∀ b ∈ p.blocks, ∀ l ∈ b.lines, ∀ w ∈ l.words.getLast?.toList, ¬ (2 ≤ w.text.length ∧ w.text.getLast? = some '-')) &&
          decide (∀ p ∈ (toSDoc r.doc).pages, ∀ b ∈ p.blocks, b.id = [] ∧ b.fontName = ['F']) &&
          decide (∀ p ∈ (toSDoc r.doc).pages, ∀ b ∈ p.blocks, ∀ l ∈ b.lines, ∀ w ∈ l.words, w.id = [] ∧ w.fontName = ['F']) &&
          decide (∀ p ∈ (toSDoc r.doc).pages, ∀ b ∈ p.blocks, ∀ l ∈ b.lines, ∀ w ∈ l.words, ∀ c ∈ w.chars, c.id = [] ∧ c.fontName = ['F']) &&
          decide (∀ p ∈ (toSDoc r.doc).pages, p.figures.length = 0 ∧ p.shapes.length = 0) && ((toSDoc r.doc).fontInfos ['F']).isSome &&
          decide (plainText allRoles (toSDoc r.doc) = "ab cd\n".toList))
      | _ => false) = true := by decide +kernel
  cases h1 : apRun (apDoc [apTwo 1]) with
  | throw m => rw [h1] at key; cases key
  | ub m => rw [h1] at key; simp at key
  | ok a =>
    obtain ⟨c, r⟩ := a
    rw [h1] at key
    simp only [Bool.and_eq_true, decide_eq_true_eq] at key
    obtain ⟨⟨⟨⟨⟨⟨⟨rfl, k1⟩, k2⟩, k3⟩, k4⟩, k5⟩, k6⟩, k7⟩ := key
    have hpl : Plain [] := by decide
    have hpF : Plain ['F'] := by decide
    refine ⟨r.doc, ⟨by decide, refPipeline_ok, apDoc_parsed (ks := [1]), ⟨_, _, _, _, _, rfl, h1⟩⟩, ?_, ⟨?_, ?_, ?_, ?_, ?_⟩, ?_, k7⟩
    · intro p hp b hb l hl w hw; exact k1 p hp b hb l hl w (by rw [hw]; simp)
    · intro p hp b hb; obtain ⟨e1, e2⟩ := k2 p hp b hb; rw [e1, e2]; exact ⟨hpl, hpF⟩
    · intro p hp b hb l hl w hw; obtain ⟨e1, e2⟩ := k3 p hp b hb l hl w hw; rw [e1, e2]; exact ⟨hpl, hpF⟩
    · intro p hp b hb l hl w hw c hc; obtain ⟨e1, e2⟩ := k4 p hp b hb l hl w hw c hc; rw [e1, e2]; exact ⟨hpl, hpF⟩
    · intro p hp f hf; rw [List.length_eq_zero_iff.mp (k5 p hp).1] at hf; cases hf
    · intro p hp f hf; rw [List.length_eq_zero_iff.mp (k5 p hp).2] at hf; cases hf
    · rintro roles ⟨b, hb, l, hl, w, hw, c, hc, _, hn⟩
      obtain ⟨p, hp, hb⟩ := fo_chosen hb
      rw [(k4 p hp b hb l hl w hw c hc).2] at hn
      rw [hn] at k6; cases k6

/-- Limits of C84: dehyphenation joins the parts of a word in the plain text, but not in the JSONL output: its blocks contain the hyphen and a blank. -/
theorem c84_hyphen_refuted : (match apRun (apDoc [apPage 1 (apRow 1 10 10 "aa-".toList ++ apRow 1 10 22 "bb".toList)]) with
      | .ok (_, r) => decide (plainText allRoles (toSDoc r.doc) = "aabb\n".toList ∧ (chosenBlocks allRoles (toSDoc r.doc)).map (·.text) = ["aa- bb".toList] ∧
          (unitJson ⟨fun _ => ['0'], fun _ => ['0']⟩ allRoles (toSDoc r.doc) .textBlocks).map textMember = [some "aa- bb".toList])
      | _ => false) = true := by decide +kernel

end Verif.Props
