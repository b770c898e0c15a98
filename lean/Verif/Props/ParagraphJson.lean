import Verif.Props.ParagraphBoxes
import Verif.Props.Formats
import Verif.Props.BlankPages
import Verif.Spec.ParagraphJson

/-!
# C99: the JSONL output of a column
-/

namespace Verif.Props

open Verif.Math Verif.Elements Verif.Spec Verif.Words Verif.TextLines Verif.Pipeline
open Verif.Cli (Config)
open Verif.Serialize (Printer SBlock SWord jsonl)

section

variable [Marks]

/-- A block without an id. -/
def ppNoBlock : SBlock := { role := .title, lines := [] }

theorem pp_zip {α β γ : Type} {R : β → ℕ × ℕ × ℕ × ℕ → γ → Prop} {f : α → β} {g : α → Box} {v : α → γ} : ∀ (l : List α) (cs : List (ℕ × ℕ × ℕ × ℕ)),
    List.Forall₂ HasCorners (l.map g) cs → (∀ a ∈ l, ∀ c, HasCorners (g a) c → R (f a) c (v a)) → List.Forall₂ (fun x y => R x.1 x.2 y) ((l.map f).zip cs) (l.map v) := by
  intro l
  induction l with
  | nil =>
    intro cs h _
    cases h
    exact .nil
  | cons a l ih =>
    intro cs h hv
    rw [List.map_cons] at h
    cases h with
    | @cons _ c _ cs hc h =>
      rw [List.map_cons, List.zip_cons_cons, List.map_cons]
      exact .cons (hv a (by simp) c hc) (ih cs h fun b hb => hv b (by simp [hb]))

theorem pp_ppRow_mem {y : ℕ} {row : List (List Char)} : ∀ {r x : ℕ} {w : Word}, w ∈ ppRow y r x row → ∃ r' x' t, w = ppWord r' x' y t := by
  induction row with
  | nil => intro r x w h; cases h
  | cons t row ih =>
    intro r x w h
    rcases List.mem_cons.mp h with rfl | h
    · exact ⟨r, x, t, rfl⟩
    · exact ih h

theorem pp_ppRows_mem {rows : List (List (List Char))} : ∀ {r y : ℕ} {w : Word}, w ∈ ppRows r y rows → ∃ r' x' y' t, w = ppWord r' x' y' t := by
  induction rows with
  | nil => intro r y w h; cases h
  | cons row rows ih =>
    intro r y w h
    rcases List.mem_append.mp h with h | h
    · obtain ⟨r', x', t, e⟩ := pp_ppRow_mem h
      exact ⟨r', x', y, t, e⟩
    · exact ih h

theorem pp_typedWord_font {y : ℕ} {t : List Char} : ∀ {x : ℕ} {c : Glyph}, c ∈ typedWord y x t → c.fontName = ['F'] := by
  induction t with
  | nil => intro x c h; cases h
  | cons a t ih =>
    intro x c h
    rcases List.mem_cons.mp h with rfl | h
    · rfl
    · exact ih h

theorem pp_rows_short (rows : List (List (List Char))) (hf : ∀ row ∈ rows, row ≠ []) (hl : ∀ row ∈ rows, ∀ w ∈ row, w ≠ []) : ∀ y, rows.length ≤ (typedRows y rows).length := by
  induction rows with
  | nil => intro y; exact le_refl _
  | cons row rows ih =>
    intro y
    have h1 := ih (fun q hq => hf q (by simp [hq])) (fun q hq => hl q (by simp [hq])) (y + 11)
    have h2 : 1 ≤ (typedRow y 10 row).length := by
      cases row with
      | nil => exact absurd rfl (hf [] (by simp))
      | cons w ws =>
        cases w with
        | nil => exact absurd rfl (hl ([] :: ws) (by simp) [] (by simp))
        | cons c w => simp [typedRow, typedWord]
    rw [typedRows, List.length_append, List.length_cons]
    omega

theorem pp_tells_block (P : Printer) {b : SBlock} {c : ℕ × ℕ × ℕ × ℕ} (hc : HasCorners b.pos c) (hf : b.fontName = ['F']) (hs : b.fontSize = 10) (hp : b.pos.pageNum = 1) : Tells P "block".toList b.text c (blockJson P b) := by
  obtain ⟨h1, h2, h3, h4, _⟩ := hc
  constructor <;> simp [strMember, numMember, blockJson, posMembers, hf, hs, hp, h1, h2, h3, h4]

theorem pp_tells_word (P : Printer) {b : SBlock} {w : SWord} {c : ℕ × ℕ × ℕ × ℕ} (hc : HasCorners w.pos c) (hf : w.fontName = ['F']) (hs : w.fontSize = 10) (hp : w.pos.pageNum = 1) : Tells P "word".toList w.text c (wordJson P b w) := by
  obtain ⟨h1, h2, h3, h4, _⟩ := hc
  constructor <;> simp [strMember, numMember, wordJson, posMembers, hf, hs, hp, h1, h2, h3, h4]

theorem pp_tells_char (P : Printer) {b : SBlock} {w : SWord} {c : Serialize.SChar} {f : Serialize.FontFlags} {k : ℕ × ℕ × ℕ × ℕ} (hc : HasCorners c.pos k) (hf : c.fontName = ['F']) (hs : c.fontSize = 10) (hp : c.pos.pageNum = 1) (hb : c.isBase = false) :
    Tells P "char".toList c.text k (charJson P b w c f) := by
  obtain ⟨h1, h2, h3, h4, _⟩ := hc
  constructor <;> simp [strMember, numMember, charJson, posMembers, hf, hs, hp, h1, h2, h3, h4, hb]

theorem pp_wordChars (P : Printer) (b : SBlock) (w : SWord) (f : Glyph → Serialize.FontFlags) (y : ℕ) (t : List Char) : ∀ x,
    List.Forall₂ (fun a v => Tells P "char".toList a.1 a.2 v) (wordChars y x t) ((typedWord y x t).map fun g => charJson P b w (toSChar g) (f g)) := by
  induction t with
  | nil => intro x; exact .nil
  | cons c t ih =>
    intro x
    refine .cons ?_ (ih (x + 5))
    exact pp_tells_char P (c := toSChar (typedGlyph x y c)) ⟨rfl, rfl, by simp [toSChar, typedGlyph], by simp [toSChar, typedGlyph], rfl⟩ rfl rfl rfl rfl

theorem pp_typedWord_marks (y : ℕ) (t : List Char) : ∀ x, ∀ g ∈ typedWord y x t, g.markOf = none := by
  induction t with
  | nil => intro x g h; cases h
  | cons c t ih =>
    intro x g h
    rcases List.mem_cons.mp h with rfl | h
    · rfl
    · exact ih _ g h

theorem pp_rowChars (P : Printer) (f : Word → Glyph → JVal) (y : ℕ) (row : List (List Char))
    (hf : ∀ r x t, List.Forall₂ (fun a v => Tells P "char".toList a.1 a.2 v) (wordChars y x t) ((typedWord y x t).map (f (ppWord r x y t)))) : ∀ r x,
    List.Forall₂ (fun a v => Tells P "char".toList a.1 a.2 v) (rowChars y x row) ((ppRow y r x row).flatMap fun w => w.chars.map (f w)) := by
  induction row with
  | nil => intro r x; exact .nil
  | cons t row ih =>
    intro r x
    rw [ppRow, List.flatMap_cons, rowChars]
    exact List.rel_append (hf r x t) (ih _ _)

theorem pp_rowsChars (P : Printer) (f : Word → Glyph → JVal) (rows : List (List (List Char)))
    (hf : ∀ r x y t, List.Forall₂ (fun a v => Tells P "char".toList a.1 a.2 v) (wordChars y x t) ((typedWord y x t).map (f (ppWord r x y t)))) : ∀ r y,
    List.Forall₂ (fun a v => Tells P "char".toList a.1 a.2 v) (rowsChars y rows) ((ppRows r y rows).flatMap fun w => w.chars.map (f w)) := by
  induction rows with
  | nil => intro r y; exact .nil
  | cons row rows ih =>
    intro r y
    rw [ppRows, List.flatMap_append, rowsChars]
    exact List.rel_append (pp_rowChars P f y row (fun r x t => hf r x y t) r 10) (ih _ _)

variable {lib : Pipeline.Lib} {n W : ℕ} {cfg : Config} {d0 d' : Document} {rows : List (List (List Char))} {p : Page}

/-- **C99 (JSONL).** The JSONL output of a column has one record for every paragraph, for every word and for every character, in order, with the text, the corners, the font, its size and the page. -/
theorem c99_jsonl (h : FullRun lib n cfg d0 d') (hp : d0.pages = [p]) (ht : TypedPage rows p) (hc : Column W rows) (hr : RunningText rows)
    (hitalic : ∀ i, d0.fontInfos ['F'] = some i → i.isItalic = false) (hsmall : ∀ row ∈ rows, ∃ w ∈ row, ∃ c ∈ w, 'a' ≤ c ∧ c ≤ 'z') (hlen : p.characters.length < 2 ^ 32)
    (hknown : d0.fontInfos ['F'] ≠ none) {P : Printer} (hP : PrinterContract P) :
    ∃ outB valsB outW valsW outC valsC,
      jsonl P allRoles (toSDoc d') [.textBlocks] = .ok outB ∧ IsJsonLines outB valsB ∧
      jsonl P allRoles (toSDoc d') [.words] = .ok outW ∧ IsJsonLines outW valsW ∧
      jsonl P allRoles (toSDoc d') [.characters] = .ok outC ∧ IsJsonLines outC valsC ∧
      List.Forall₂ (fun x v => Tells P "block".toList x.1 x.2 v) (((paragraphs W rows).map fun g => rowText g.flatten).zip (paragraphBoxes 10 (paragraphs W rows))) valsB ∧
      List.Forall₂ (fun x v => Tells P "word".toList x.1 x.2 v) (rows.flatten.zip (rowsWordBoxes 10 rows)) valsW ∧
      List.Forall₂ (fun x v => Tells P "char".toList x.1 x.2 v) (rowsChars 10 rows) valsC := by
  obtain ⟨row0, rest, hrows⟩ : ∃ row0 rest, rows = row0 :: rest := by
    cases hc' : rows with
    | nil => exact absurd hc' (pp_rows_ne hc)
    | cons a b => exact ⟨a, b, rfl⟩
  obtain ⟨q, h1, h2, h3, h4, h5⟩ := pp_whole h hp ht hc hr (fun _ row _ h1 _ _ => ⟨hitalic, hsmall row (List.mem_of_getElem? h1)⟩) hlen hrows
  obtain ⟨q', g1, g2, _, g4⟩ := c99_places h hp ht hc hr hitalic hsmall hlen
  obtain ⟨x1, _, x3, _⟩ := c99_hyphens h hp ht hc hr hitalic hsmall hlen
  rw [h1] at g1
  cases g1
  rw [h1, List.map_cons, List.map_nil, List.cons.injEq] at x1 x3
  replace x1 := x1.1
  replace x3 := x3.1
  have h5' : List.Forall₂ (fun x (b : TextBlock) => PpBlock W x b.block) (ppGroups W 0 [row0] rest) q.blocks := by
    rw [List.forall₂_map_right_iff] at h5
    exact h5
  have hshort : rows.length < 2 ^ 32 := lt_of_le_of_lt (le_of_le_of_eq (pp_rows_short rows hc.full hc.letters 10) (by rw [ht.characters])) hlen
  have hblock : ∀ b ∈ q.blocks, (b.block.fontName = ['F'] ∧ b.block.fontSize = 10) ∧ b.block.pos.pageNum = 1 := by
    intro b hb
    obtain ⟨i, hi, rfl⟩ := List.getElem_of_mem hb
    have hi' : i < (ppGroups W 0 [row0] rest).length := by rw [h5'.length_eq]; exact hi
    have hb' := h5'.get hi' hi
    simp only [List.get_eq_getElem] at hb'
    refine ⟨hb'.font ?_, hb'.page⟩
    obtain ⟨pre, post, e1, _⟩ := pp_groups_part (rows := rows) rest [] [row0] (by rw [hrows]; rfl) _ (List.getElem_mem hi')
    rw [e1] at hshort
    simp only [List.length_append] at hshort
    omega
  have hword : ∀ i : ℕ, ∀ w ∈ ((d'.lines[i]?).map fun l : TextLine => l.line.words).getD [], ∃ r x y t, w = ppWord r x y t := by
    intro i w hw
    cases hl : d'.lines[i]? with
    | none => rw [hl] at hw; cases hw
    | some l =>
      obtain ⟨row, e1, e2⟩ := h4 i l hl
      rw [hl, Option.map_some, Option.getD_some, e2] at hw
      obtain ⟨r, x, t, e⟩ := pp_ppRow_mem (row := row) hw
      exact ⟨r, x, _, t, e⟩
  have hpages : (toSDoc d').pages = [toSPage d' 0 q] := by
    show d'.pages.mapIdx (toSPage d') = _
    rw [h1]
    rfl
  have hpl : Plain [] := by decide
  have hpF : Plain ['F'] := by decide
  have hwordS : ∀ b ∈ (toSPage d' 0 q).blocks, ∀ l ∈ b.lines, ∀ w ∈ l.words, ∃ r x y t, w = toSWord d'.hyphens 0 (ppWord r x y t) := by
    intro b hb l hl w hw
    obtain ⟨b', hb', rfl⟩ := List.mem_map.mp hb
    obtain ⟨i, _, rfl⟩ := List.mem_map.mp hl
    obtain ⟨w', hw', rfl⟩ := List.mem_map.mp hw
    obtain ⟨r, x, y, t, rfl⟩ := hword i w' hw'
    exact ⟨r, x, y, t, rfl⟩
  have hclean : CleanDoc (toSDoc d') := by
    constructor
    · intro s hs b hb
      rw [hpages, List.mem_singleton] at hs
      subst hs
      obtain ⟨b', hb', rfl⟩ := List.mem_map.mp hb
      exact ⟨hpl, by show Plain b'.block.fontName; rw [(hblock b' hb').1.1]; exact hpF⟩
    · intro s hs b hb l hl w hw
      rw [hpages, List.mem_singleton] at hs
      subst hs
      obtain ⟨r, x, y, t, rfl⟩ := hwordS b hb l hl w hw
      exact ⟨hpl, hpF⟩
    · intro s hs b hb l hl w hw c hc
      rw [hpages, List.mem_singleton] at hs
      subst hs
      obtain ⟨r, x, y, t, rfl⟩ := hwordS b hb l hl w hw
      obtain ⟨g, hg, rfl⟩ := List.mem_map.mp hc
      exact ⟨hpl, by show Plain g.fontName; rw [pp_typedWord_font hg]; exact hpF⟩
    · intro s hs f hf
      rw [hpages, List.mem_singleton] at hs
      subst hs
      obtain ⟨b, _, rfl⟩ := List.mem_map.mp hf
      exact hpl
    · intro s hs f hf
      rw [hpages, List.mem_singleton] at hs
      subst hs
      obtain ⟨b, _, rfl⟩ := List.mem_map.mp hf
      exact hpl
  have hchosen : chosenBlocks allRoles (toSDoc d') = q.blocks.map (toSBlock d' 0) := by
    unfold chosenBlocks
    rw [hpages, List.flatMap_cons, List.flatMap_nil, List.append_nil, List.filter_eq_self.mpr fun b _ => by simpa using mem_allRoles b.role]
    rfl
  obtain ⟨outB, b1, b2⟩ := c36_json_lines_partial hP allRoles hclean [.textBlocks] (by simp)
  obtain ⟨outW, w1, w2⟩ := c36_json_lines_partial hP allRoles hclean [.words] (by simp)
  have hfonts : d'.fontInfos = d0.fontInfos := (bk_kept h.precision h.sorts h.parsed h.run).2
  obtain ⟨outC, c1, c2⟩ := c36_json_lines_partial hP allRoles hclean [.characters] (by
    rintro - ⟨b, hb, l, hl, w, hw, c, hcc, _, hn⟩
    rw [hchosen] at hb
    obtain ⟨r, x, y, t, rfl⟩ := hwordS b hb l hl w hw
    obtain ⟨g, hg, rfl⟩ := List.mem_map.mp hcc
    have hn' : ((d'.fontInfos g.fontName).map fun i => ({ weight := ⌊i.weight⌋, isItalic := i.isItalic } : Serialize.FontFlags)) = none := hn
    rw [pp_typedWord_font hg, hfonts, Option.map_eq_none_iff] at hn'
    exact hknown hn')
  have hrange : (q.blocks.flatMap fun b => b.block.lines) = List.range rows.length := by
    rw [List.flatMap_def, pp_forall₂_map h5' (f := fun x => List.range' x.1 x.2.length) fun x _ b _ hxb => hxb.lines, ← List.flatMap_def, pp_groups_range, List.range_eq_range', hrows]
    show List.range' 0 (1 + rest.length) = List.range' 0 (rest.length + 1)
    rw [Nat.add_comm]
  have hwalk : ∀ F : SWord → List JVal, ((chosenBlocks allRoles (toSDoc d')).flatMap fun b => (b.lines.flatMap (·.words)).flatMap F) =
      (ppRows 0 10 rows).flatMap fun w => F (toSWord d'.hyphens 0 w) := by
    intro F
    have hsplit : ((chosenBlocks allRoles (toSDoc d')).flatMap fun b => (b.lines.flatMap (·.words)).flatMap F) =
        (q.blocks.flatMap fun b => b.block.lines).flatMap fun i =>
          (((d'.lines[i]?).map fun l : TextLine => l.line.words).getD []).flatMap fun w => F (toSWord d'.hyphens 0 w) := by
      rw [hchosen, List.flatMap_map, List.flatMap_assoc, List.flatMap_def, List.flatMap_def]
      congr 1
      refine List.map_congr_left fun b _ => ?_
      rw [List.flatMap_assoc]
      unfold toSBlock
      simp only
      rw [List.flatMap_map]
      rw [List.flatMap_def, List.flatMap_def]
      congr 1
      refine List.map_congr_left fun i _ => ?_
      rw [List.flatMap_map]
    rw [hsplit, hrange, pp_rows_flat, List.flatMap_assoc, List.flatMap_def, List.flatMap_def]
    congr 1
    refine List.map_congr_left fun i hi => ?_
    have hi' := List.mem_range.mp hi
    have e := List.getElem?_eq_getElem (h3 ▸ hi' : i < d'.lines.length)
    obtain ⟨row, e1, e2⟩ := h4 i _ e
    have e3 : rows.getD i [] = row := by rw [List.getD_eq_getElem?_getD, e1]; rfl
    rw [e, Option.map_some, Option.getD_some, e2, e3, Nat.zero_add]
    rfl
  have hids : ∀ b ∈ chosenBlocks allRoles (toSDoc d'), b.id = [] := by
    intro b hb
    rw [hchosen] at hb
    obtain ⟨b', _, rfl⟩ := List.mem_map.mp hb
    rfl
  refine ⟨outB, _, outW, _, outC, _, b1, b2, w1, w2, c1, c2, ?_, ?_, ?_⟩
  · rw [List.flatMap_cons, List.flatMap_nil, List.append_nil]
    show List.Forall₂ _ _ ((chosenBlocks allRoles (toSDoc d')).map (blockJson P))
    rw [hchosen, List.map_map, ← x3]
    exact pp_zip q.blocks _ g4 fun b hb c hcb => pp_tells_block P (b := toSBlock d' 0 b) hcb (hblock b hb).1.1 (hblock b hb).1.2 (hblock b hb).2
  · rw [List.flatMap_cons, List.flatMap_nil, List.append_nil]
    show List.Forall₂ _ _ ((chosenBlocks allRoles (toSDoc d')).flatMap fun b => (b.lines.flatMap (·.words)).map (wordJson P b))
    have hall : ((chosenBlocks allRoles (toSDoc d')).flatMap fun b => (b.lines.flatMap (·.words)).map (wordJson P b)) =
        (ppRows 0 10 rows).map fun w => wordJson P ppNoBlock (toSWord d'.hyphens 0 w) := by
      have := hwalk fun w => [wordJson P ppNoBlock w]
      rw [← List.map_eq_flatMap] at this
      rw [← this, List.flatMap_def, List.flatMap_def]
      congr 1
      refine List.map_congr_left fun b hb => ?_
      rw [← List.map_eq_flatMap]
      refine List.map_congr_left fun w _ => ?_
      unfold wordJson
      rw [hids b hb]
      rfl
    rw [hall, ← x1, h2]
    refine pp_zip (ppRows 0 10 rows) _ (pp_rowsWordBoxes rows 0 10) fun w hw c hcw => ?_
    obtain ⟨r, x, y, t, rfl⟩ := pp_ppRows_mem hw
    exact pp_tells_word P (b := ppNoBlock) (w := toSWord d'.hyphens 0 (ppWord r x y t)) hcw rfl rfl rfl
  · rw [List.flatMap_cons, List.flatMap_nil, List.append_nil]
    show List.Forall₂ _ _ ((chosenBlocks allRoles (toSDoc d')).flatMap fun b => (b.lines.flatMap (·.words)).flatMap fun w =>
      (w.chars.filter fun c => !c.isMark).map fun c => charJson P b w c (((toSDoc d').fontInfos c.fontName).getD {}))
    have hall : ((chosenBlocks allRoles (toSDoc d')).flatMap fun b => (b.lines.flatMap (·.words)).flatMap fun w =>
        (w.chars.filter fun c => !c.isMark).map fun c => charJson P b w c (((toSDoc d').fontInfos c.fontName).getD {})) =
        (ppRows 0 10 rows).flatMap fun w => w.chars.map fun g => charJson P ppNoBlock (toSWord d'.hyphens 0 w) (toSChar g) (((toSDoc d').fontInfos (toSChar g).fontName).getD {}) := by
      refine Eq.trans ?_ (Eq.trans (hwalk fun w => (w.chars.filter fun c => !c.isMark).map fun c => charJson P ppNoBlock w c (((toSDoc d').fontInfos c.fontName).getD {})) ?_)
      · rw [List.flatMap_def, List.flatMap_def]
        congr 1
        refine List.map_congr_left fun b hb => ?_
        rw [List.flatMap_def, List.flatMap_def]
        congr 1
        refine List.map_congr_left fun w _ => List.map_congr_left fun c _ => ?_
        unfold charJson
        rw [hids b hb]
        rfl
      · rw [List.flatMap_def, List.flatMap_def]
        congr 1
        refine List.map_congr_left fun w hw => ?_
        obtain ⟨r, x, y, t, rfl⟩ := pp_ppRows_mem hw
        rw [List.filter_eq_self.mpr, show (toSWord d'.hyphens 0 (ppWord r x y t)).chars = (ppWord r x y t).chars.map toSChar from rfl, List.map_map]
        · rfl
        · intro c hc
          obtain ⟨g, hg, rfl⟩ := List.mem_map.mp hc
          show (!g.markOf.isSome) = true
          rw [pp_typedWord_marks y t x g hg]
          rfl
    rw [hall]
    exact pp_rowsChars P _ rows (fun r x y t => pp_wordChars P ppNoBlock _ _ y t x) 0 10

end

/-- The records of the page with two paragraphs. -/
example {P : Printer} (hP : PrinterContract P) : ∃ d' outB valsB, FullRun refPipeline 1 plConfig (ppPageDoc ppTwo) d' ∧ jsonl P allRoles (toSDoc d') [.textBlocks] = .ok outB ∧ IsJsonLines outB valsB ∧
    List.Forall₂ (fun x v => Tells P "block".toList x.1 x.2 v) [("alpha beta ga m".toList, 10, 10, 60, 31), ("mu epsilon nu xi".toList, 10, 32, 60, 53)] valsB := by
  obtain ⟨d', h, ht, hc, hr, hw, hi, hs, hlen, _⟩ := c99_premises_paragraphs
  obtain ⟨outB, valsB, _, _, _, _, h1, h2, _, _, _, _, h3, _⟩ := c99_jsonl h rfl ht hc hr hi hs hlen (fun h => by cases h) hP
  exact ⟨d', outB, valsB, h, h1, h2, h3⟩

end Verif.Props
