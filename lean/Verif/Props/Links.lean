import Verif.Spec.Links
import Verif.Props.Formats
import Verif.Props.Text

/-!
# C87: the ids link the records of the JSONL output
-/

namespace Verif.Props

open Verif.Math Verif.Elements Verif.Spec Verif.Words Verif.TextLines Verif.Pipeline Verif.Serialize
open Verif.ReadingOrder (RElem Role)
open Verif.Cli (Stage StageConfig Env Config)

variable {lib : Pipeline.Lib} {n : ℕ} {cfg : Config} {d0 d : Document}

/-! ## Lists -/

theorem li_filter_key {α β κ : Type} [DecidableEq κ] {key : α → κ} {link : β → κ} {F : α → List β} {xs : List α} (hn : (xs.map key).Nodup)
    (hF : ∀ x ∈ xs, ∀ v ∈ F x, link v = key x) {x : α} (hx : x ∈ xs) : (xs.flatMap F).filter (fun v => decide (link v = key x)) = F x := by
  induction xs with
  | nil => cases hx
  | cons y ys ih =>
    rw [List.map_cons, List.nodup_cons] at hn
    rw [List.flatMap_cons, List.filter_append]
    rcases List.mem_cons.mp hx with rfl | hx'
    · rw [List.filter_eq_self.mpr fun v hv => by simpa using hF _ (by simp) v hv]
      rw [List.filter_eq_nil_iff.mpr, List.append_nil]
      intro v hv
      obtain ⟨z, hz, hv⟩ := List.mem_flatMap.mp hv
      rw [decide_eq_true_eq, hF z (by simp [hz]) v hv]
      intro h
      exact hn.1 (h ▸ List.mem_map_of_mem hz)
    · rw [ih hn.2 (fun z hz => hF z (by simp [hz])) hx']
      rw [List.filter_eq_nil_iff.mpr, List.nil_append]
      intro v hv
      rw [decide_eq_true_eq, hF y (by simp) v hv]
      intro h
      exact hn.1 (h ▸ List.mem_map_of_mem hx')

theorem li_filter_one {α κ : Type} [DecidableEq κ] {key : α → κ} {xs : List α} (hn : (xs.map key).Nodup) {x : α} (hx : x ∈ xs) :
    xs.filter (fun v => decide (key v = key x)) = [x] := by
  have h := li_filter_key (F := fun v => [v]) (link := key) hn (by simp) hx
  simpa using h

theorem li_nodup_some {α : Type} {xs : List α} {f : α → Text.Str} {g : α → Option Text.Str} (h : (xs.map f).Nodup) (hg : ∀ x ∈ xs, g x = some (f x)) : (xs.map g).Nodup := by
  have e : xs.map g = (xs.map f).map some := by rw [List.map_map]; exact List.map_congr_left hg
  rw [e]
  exact h.map (Option.some_injective _)

/-- Of the records of all units, those of one unit. -/
theorem li_unit {P : Printer} {roles : List Role} {doc : SDoc} {t : String} {u : Unit'} (hu : ∀ v ∈ unitJson P roles doc u, strMember "type" v = some t.toList)
    (ho : ∀ u', u' ≠ u → ∀ v ∈ unitJson P roles doc u', strMember "type" v ≠ some t.toList) {units : List Unit'} (hn : units.Nodup) (hm : u ∈ units) :
    recordsOf t (units.flatMap (unitJson P roles doc)) = unitJson P roles doc u := by
  unfold recordsOf
  induction units with
  | nil => cases hm
  | cons y ys ih =>
    rw [List.nodup_cons] at hn
    rw [List.flatMap_cons, List.filter_append]
    by_cases hy : y = u
    · subst hy
      rw [List.filter_eq_self.mpr fun v hv => by simpa using hu v hv]
      rw [List.filter_eq_nil_iff.mpr, List.append_nil]
      intro v hv
      obtain ⟨z, hz, hv⟩ := List.mem_flatMap.mp hv
      rw [decide_eq_true_eq]
      exact ho z (fun h => hn.1 (h ▸ hz)) v hv
    · rw [ih hn.2 (by rcases List.mem_cons.mp hm with h | h; exacts [absurd h.symm hy, h])]
      rw [List.filter_eq_nil_iff.mpr, List.nil_append]
      intro v hv
      rw [decide_eq_true_eq]
      exact ho y hy v hv

/-! ## The members of the records -/

theorem li_block (P : Printer) (b : SBlock) : strMember "type" (blockJson P b) = some "block".toList ∧ strMember "id" (blockJson P b) = some b.id ∧
    strMember "text" (blockJson P b) = some b.text := by
  simp [strMember, blockJson, posMembers]

theorem li_word (P : Printer) (b : SBlock) (w : SWord) : strMember "type" (wordJson P b w) = some "word".toList ∧ strMember "id" (wordJson P b w) = some w.id ∧
    strMember "text" (wordJson P b w) = some w.text ∧ strMember "block" (wordJson P b w) = some b.id := by
  simp [strMember, wordJson, posMembers]

theorem li_char (P : Printer) (b : SBlock) (w : SWord) (c : SChar) (f : FontFlags) : strMember "type" (charJson P b w c f) = some "char".toList ∧
    strMember "text" (charJson P b w c f) = some (shownText c) ∧ strMember "word" (charJson P b w c f) = some w.id ∧ strMember "block" (charJson P b w c f) = some b.id := by
  simp [strMember, charJson, posMembers, shownText]

theorem li_page (P : Printer) (p : SPage) : strMember "type" (pageJson P p) = some "page".toList := by
  simp [strMember, pageJson]

theorem li_rect (P : Printer) (t : String) (f : SRect) : strMember "type" (rectJson P t f) = some t.toList := by
  simp [strMember, rectJson]

/-- The word `type` shows for a unit. -/
def li_type : Unit' → String
  | .pages => "page" | .characters => "char" | .words => "word" | .textBlocks => "block" | .figures => "figure" | .shapes => "shape" | .textLines => "line"

theorem li_types {P : Printer} {roles : List Role} {doc : SDoc} (u : Unit') : ∀ v ∈ unitJson P roles doc u, strMember "type" v = some (li_type u).toList := by
  intro v hv
  cases u with
  | pages => obtain ⟨p, _, rfl⟩ := List.mem_map.mp hv; exact li_page P p
  | textLines => cases hv
  | figures => obtain ⟨p, _, rfl⟩ := List.mem_map.mp hv; exact li_rect P _ p
  | shapes => obtain ⟨p, _, rfl⟩ := List.mem_map.mp hv; exact li_rect P _ p
  | textBlocks => obtain ⟨p, _, rfl⟩ := List.mem_map.mp hv; exact (li_block P p).1
  | words =>
    obtain ⟨b, _, hv⟩ := List.mem_flatMap.mp hv
    obtain ⟨w, _, rfl⟩ := List.mem_map.mp hv; exact (li_word P b w).1
  | characters =>
    obtain ⟨b, _, hv⟩ := List.mem_flatMap.mp hv
    obtain ⟨w, _, hv⟩ := List.mem_flatMap.mp hv
    obtain ⟨c, _, rfl⟩ := List.mem_map.mp hv; exact (li_char P b w c _).1

theorem li_type_inj {u u' : Unit'} (h : (li_type u).toList = (li_type u').toList) : u = u' := by
  cases u <;> cases u' <;> first | rfl | (exfalso; revert h; decide)

theorem li_records {P : Printer} {roles : List Role} {doc : SDoc} {units : List Unit'} (hn : units.Nodup) {u : Unit'} (hm : u ∈ units) :
    recordsOf (li_type u) (units.flatMap (unitJson P roles doc)) = unitJson P roles doc u := by
  refine li_unit (li_types u) ?_ hn hm
  intro u' hne v hv h
  rw [li_types u' v hv] at h
  exact hne (li_type_inj (Option.some.inj h))

/-! ## The texts of a labelled document -/

theorem li_same {doc : SDoc} (h : SameTexts (plainDoc doc)) : SameTexts doc := by
  refine ⟨?_, ?_⟩
  · intro p hp b hb
    have := h.blocks (plainPage p) (List.mem_map_of_mem hp) (plainBlock b) (List.mem_map_of_mem hb)
    have e : ((plainBlock b).lines.flatMap (·.words)).map (·.text) = (b.lines.flatMap (·.words)).map (·.text) := by
      show ((b.lines.map fun l => (⟨l.words.map plainWord⟩ : SLine)).flatMap (·.words)).map (·.text) = _
      rw [List.flatMap_map, List.map_flatMap, List.map_flatMap]
      rw [List.flatMap_def, List.flatMap_def]
      congr 1
      apply List.map_congr_left
      intro l _
      show (l.words.map plainWord).map (·.text) = _
      rw [List.map_map]; rfl
    rw [e] at this
    exact this
  · intro p hp b hb l hl w hw
    have := h.words (plainPage p) (List.mem_map_of_mem hp) (plainBlock b) (List.mem_map_of_mem hb) ⟨l.words.map plainWord⟩ (List.mem_map_of_mem (f := fun l : SLine => (⟨l.words.map plainWord⟩ : SLine)) hl)
      (plainWord w) (List.mem_map_of_mem hw)
    refine ⟨?_, ?_⟩
    · have ht := this.text
      show w.text = _
      rw [show w.text = (plainWord w).text from rfl, ht]
      show (w.chars.map plainChar).flatMap shownText = _
      rw [List.flatMap_map]; rfl
    · intro c hc
      exact this.marks (plainChar c) (List.mem_map_of_mem hc)

/-! ## The property -/

theorem li_chosen_nodup {roles : List Role} {doc : SDoc} (hd : DistinctIds doc) : ((chosenBlocks roles doc).map (·.id)).Nodup :=
  hd.blocks.sublist (List.filter_sublist.map _)

/-- The words of the chosen blocks, with their blocks. -/
def li_pairs (roles : List Role) (doc : SDoc) : List (SBlock × SWord) := (chosenBlocks roles doc).flatMap fun b => (b.lines.flatMap (·.words)).map fun w => (b, w)

theorem li_pairs_nodup {roles : List Role} {doc : SDoc} (hd : DistinctIds doc) : ((li_pairs roles doc).map fun x => x.2.id).Nodup := by
  refine hd.words.sublist ?_
  have e : (li_pairs roles doc).map (fun x => x.2.id) = ((chosenBlocks roles doc).flatMap fun b => b.lines.flatMap (·.words)).map (·.id) := by
    unfold li_pairs
    rw [List.map_flatMap, List.map_flatMap, List.flatMap_def, List.flatMap_def]
    congr 1
    apply List.map_congr_left
    intro b _
    rw [List.map_map]; rfl
  have e' : docWords doc = (doc.pages.flatMap (·.blocks)).flatMap fun b => b.lines.flatMap (·.words) := by
    unfold docWords; rw [List.flatMap_assoc]
  rw [e, e']
  exact (List.Sublist.flatMap List.filter_sublist _).map _

theorem li_linked {P : Printer} {roles : List Role} {doc : SDoc} (hs : SameTexts doc) (hd : DistinctIds doc) {units : List Unit'} (hn : units.Nodup)
    (h1 : .characters ∈ units) (h2 : .words ∈ units) (h3 : .textBlocks ∈ units) : Linked (units.flatMap (unitJson P roles doc)) := by
  have hB : recordsOf "block" (units.flatMap (unitJson P roles doc)) = (chosenBlocks roles doc).map (blockJson P) := li_records hn h3
  have hW : recordsOf "word" (units.flatMap (unitJson P roles doc)) = (li_pairs roles doc).map fun x => wordJson P x.1 x.2 := by
    refine (li_records hn h2).trans ?_
    unfold li_pairs
    show (chosenBlocks roles doc).flatMap (fun b => (b.lines.flatMap (·.words)).map (wordJson P b)) = _
    rw [List.map_flatMap, List.flatMap_def, List.flatMap_def]
    congr 1
    apply List.map_congr_left
    intro b _
    rw [List.map_map]; rfl
  have hC : recordsOf "char" (units.flatMap (unitJson P roles doc)) = (li_pairs roles doc).flatMap fun x =>
      (x.2.chars.filter fun c => !c.isMark).map fun c => charJson P x.1 x.2 c ((doc.fontInfos c.fontName).getD {}) := by
    refine (li_records hn h1).trans ?_
    unfold li_pairs
    show (chosenBlocks roles doc).flatMap (fun b => (b.lines.flatMap (·.words)).flatMap fun w =>
      (w.chars.filter fun c => !c.isMark).map fun c => charJson P b w c ((doc.fontInfos c.fontName).getD {})) = _
    rw [List.flatMap_assoc, List.flatMap_def, List.flatMap_def]
    congr 1
    apply List.map_congr_left
    intro b _
    rw [List.flatMap_map]
  have nB : (((chosenBlocks roles doc).map (blockJson P)).map (strMember "id")).Nodup := by
    rw [List.map_map]
    exact li_nodup_some (li_chosen_nodup hd) fun b _ => (li_block P b).2.1
  have nW : (((li_pairs roles doc).map fun x => wordJson P x.1 x.2).map (strMember "id")).Nodup := by
    rw [List.map_map]
    exact li_nodup_some (li_pairs_nodup hd) fun x _ => (li_word P x.1 x.2).2.1
  have hmem : ∀ x ∈ li_pairs roles doc, x.1 ∈ chosenBlocks roles doc ∧ ∃ p ∈ doc.pages, x.1 ∈ p.blocks ∧ ∃ l ∈ x.1.lines, x.2 ∈ l.words := by
    intro x hx
    obtain ⟨b, hb, hx⟩ := List.mem_flatMap.mp hx
    obtain ⟨w, hw, rfl⟩ := List.mem_map.mp hx
    obtain ⟨p, hp, hbp⟩ := fo_chosen hb
    obtain ⟨l, hl, hw⟩ := List.mem_flatMap.mp hw
    exact ⟨hb, p, hp, hbp, l, hl, hw⟩
  refine ⟨?_, ?_, ?_, ?_⟩
  · rw [hW, hB]
    intro w hw
    obtain ⟨x, hx, rfl⟩ := List.mem_map.mp hw
    refine ⟨blockJson P x.1, ?_⟩
    unfold referredBy
    rw [(li_word P x.1 x.2).2.2.2, ← (li_block P x.1).2.1]
    exact li_filter_one nB (List.mem_map_of_mem (hmem x hx).1)
  · rw [hW, hC]
    intro c hc
    obtain ⟨x, hx, hc⟩ := List.mem_flatMap.mp hc
    obtain ⟨c, hc, rfl⟩ := List.mem_map.mp hc
    refine ⟨wordJson P x.1 x.2, ?_, ?_⟩
    · unfold referredBy
      rw [(li_char P x.1 x.2 c _).2.2.1, ← (li_word P x.1 x.2).2.1]
      exact li_filter_one nW (List.mem_map_of_mem (f := fun x : SBlock × SWord => wordJson P x.1 x.2) hx)
    · rw [(li_char P x.1 x.2 c _).2.2.2, (li_word P x.1 x.2).2.2.2]
  · rw [hW, hB]
    intro v hv
    obtain ⟨b, hb, rfl⟩ := List.mem_map.mp hv
    obtain ⟨p, hp, hbp⟩ := fo_chosen hb
    have e : linkedTo "block" (blockJson P b) ((li_pairs roles doc).map fun x => wordJson P x.1 x.2) = (b.lines.flatMap (·.words)).map (wordJson P b) := by
      unfold linkedTo li_pairs
      rw [List.map_flatMap]
      refine (li_filter_key (key := fun b => strMember "id" (blockJson P b)) (by rw [List.map_map] at nB; exact nB) ?_ hb).trans (by rw [List.map_map]; rfl)
      intro y _ v hv
      rw [List.map_map] at hv
      obtain ⟨w, _, rfl⟩ := List.mem_map.mp hv
      exact ((li_word P y w).2.2.2).trans (li_block P y).2.1.symm
    rw [e, (li_block P b).2.2, hs.blocks p hp b hbp]
    unfold textsOf
    rw [List.map_map]
    congr 2
  · rw [hW, hC]
    intro w hw
    obtain ⟨x, hx, rfl⟩ := List.mem_map.mp hw
    obtain ⟨_, p, hp, hb, l, hl, hw⟩ := hmem x hx
    have ht := hs.words p hp x.1 hb l hl x.2 hw
    have e : linkedTo "word" (wordJson P x.1 x.2) ((li_pairs roles doc).flatMap fun x =>
        (x.2.chars.filter fun c => !c.isMark).map fun c => charJson P x.1 x.2 c ((doc.fontInfos c.fontName).getD {})) =
        x.2.chars.map fun c => charJson P x.1 x.2 c ((doc.fontInfos c.fontName).getD {}) := by
      unfold linkedTo
      refine (li_filter_key (key := fun x : SBlock × SWord => strMember "id" (wordJson P x.1 x.2)) (by rw [List.map_map] at nW; exact nW) ?_ hx).trans ?_
      · intro y _ v hv
        obtain ⟨c, _, rfl⟩ := List.mem_map.mp hv
        exact ((li_char P y.1 y.2 c _).2.2.1).trans (li_word P y.1 y.2).2.1.symm
      · rw [List.filter_eq_self.mpr fun c hc => by simp [ht.marks c hc]]
    rw [e, (li_word P x.1 x.2).2.2.1, ht.text]
    unfold textsOf
    rw [List.map_map, List.flatMap_def]
    congr 2

/-- **C87.** Take the finished document of a run, with whatever ids (and colours, page sizes) its objects got, no two blocks and no two words the same. Then the JSONL output
with characters, words and blocks (and possibly other units, in any order) consists of JSON records that fit together: every word refers to exactly one of the blocks,
every character to exactly one of the words (and both to the same block), and the text of a block or word is that of the words or characters that refer to it. -/
theorem c87_links (h : EndedRun lib n cfg d0 d) {P : Printer} (hP : PrinterContract P) {doc : SDoc} (hdoc : plainDoc doc = toSDoc d) (hc : CleanDoc doc) (hd : DistinctIds doc)
    (roles : List Role) (hu : ¬ UnknownFont roles doc) {units : List Unit'} (hn : units.Nodup)
    (h1 : .characters ∈ units) (h2 : .words ∈ units) (h3 : .textBlocks ∈ units) :
    ∃ out vals, jsonl P roles doc units = .ok out ∧ IsJsonLines out vals ∧ Linked vals := by
  obtain ⟨e, he⟩ := h.trace
  have hs := fo_same h.precision h.sorts h.parsed he
  rw [← hdoc] at hs
  obtain ⟨out, o1, o2⟩ := c36_json_lines_partial hP roles hc units (fun _ => hu)
  exact ⟨out, _, o1, o2, li_linked (li_same hs) hd hn h1 h2 h3⟩

/-- **C87.** The ids (and colours, page sizes) have no influence on the plain text. -/
theorem c87_text (roles : List Role) (doc : SDoc) : plainText roles doc = plainText roles (plainDoc doc) := by
  rw [c34_plain_text_partial, c34_plain_text_partial]
  congr 2
  have e : chosenBlocks roles (plainDoc doc) = (chosenBlocks roles doc).map plainBlock := by
    unfold chosenBlocks
    have e0 : (plainDoc doc).pages.flatMap (·.blocks) = (doc.pages.flatMap (·.blocks)).map plainBlock := by
      show (doc.pages.map plainPage).flatMap (·.blocks) = _
      rw [List.flatMap_map, List.map_flatMap]; rfl
    rw [e0, List.filter_map]; rfl
  show (chosenBlocks roles doc).map printedBlock = (chosenBlocks roles (plainDoc doc)).map printedBlock
  rw [e, List.map_map]
  apply List.map_congr_left
  intro b _
  show _ = printedBlock (plainBlock b)
  unfold printedBlock plainBlock
  congr 1
  have e1 : ((b.lines.map fun l => (⟨l.words.map plainWord⟩ : SLine)).flatMap (·.words)) = (b.lines.flatMap (·.words)).map plainWord := by
    rw [List.flatMap_map, List.map_flatMap]
  simp only [e1, List.filter_map, List.map_map]
  apply List.map_congr_left
  intro w _
  show _ = (plainWord w).first.getD _
  unfold plainWord
  congr 1
  simp only [List.filter_map, List.flatMap_map]
  rfl

/-- **C87.** Ids of different types of objects are never the same, whatever random numbers are drawn. -/
theorem c87_prefixes (rand rand' : ℕ → ℕ) (len len' : ℕ) {pre pre' : String} (hp : pre ∈ ["char-", "word-", "block-", "figure-", "shape-"])
    (hp' : pre' ∈ ["char-", "word-", "block-", "figure-", "shape-"]) (hne : pre ≠ pre') {s : Text.Str}
    (h : Text.createRandomString rand len pre.toList Text.alphaNum = .ok s) : Text.createRandomString rand' len' pre'.toList Text.alphaNum ≠ .ok s := by
  intro h'
  obtain ⟨r, h1, _, _⟩ := c16_random_shape rand len pre.toList Text.alphaNum (by decide)
  obtain ⟨r', h1', _, _⟩ := c16_random_shape rand' len' pre'.toList Text.alphaNum (by decide)
  rw [h] at h1
  rw [h'] at h1'
  have e : pre.toList ++ r = pre'.toList ++ r' := (Outcome.ok.inj h1).symm.trans (Outcome.ok.inj h1')
  have e0 := congrArg List.head? e
  have key : ∀ a ∈ ["char-", "word-", "block-", "figure-", "shape-"], ∀ b ∈ ["char-", "word-", "block-", "figure-", "shape-"], a ≠ b → a.toList.head? ≠ b.toList.head? := by decide
  have hh : ∀ a ∈ ["char-", "word-", "block-", "figure-", "shape-"], a.toList ≠ [] := by decide
  rw [List.head?_append_of_ne_nil _ (hh _ hp), List.head?_append_of_ne_nil _ (hh _ hp')] at e0
  exact key _ hp _ hp' hne e0

/-! ## Examples and limits -/

/-- Ids by rank, as an example of a labelling. -/
def liWord (w : SWord) : SWord :=
  { w with id := "word-".toList ++ (Nat.repr w.rank.toNat).toList, chars := w.chars.map fun c => { c with id := "char-".toList ++ (Nat.repr c.rank.toNat).toList } }

/-- Ids by rank, as an example of a labelling. -/
def liBlock (b : SBlock) : SBlock := { b with id := "block-".toList ++ (Nat.repr b.rank.toNat).toList, lines := b.lines.map fun l => ⟨l.words.map liWord⟩ }

/-- Ids by rank, as an example of a labelling. -/
def liDoc (doc : SDoc) : SDoc := { doc with pages := doc.pages.map fun p => { p with blocks := p.blocks.map liBlock } }

theorem li_plain (doc : SDoc) : plainDoc (liDoc doc) = plainDoc doc := by
  unfold plainDoc liDoc
  simp only [List.map_map, SDoc.mk.injEq, and_true]
  apply List.map_congr_left
  intro p _
  simp only [plainPage, Function.comp, List.map_map, SPage.mk.injEq, and_true, true_and]
  apply List.map_congr_left
  intro b _
  simp only [plainBlock, liBlock, Function.comp, List.map_map, SBlock.mk.injEq, and_true, true_and]
  apply List.map_congr_left
  intro l _
  simp only [Function.comp, List.map_map, SLine.mk.injEq]
  apply List.map_congr_left
  intro w _
  simp only [plainWord, liWord, Function.comp, List.map_map, SWord.mk.injEq, and_true, true_and]
  apply List.map_congr_left
  intro c _
  rfl

theorem li_toSDoc (d : Document) : plainDoc (toSDoc d) = toSDoc d := by
  unfold plainDoc toSDoc
  simp only [SDoc.mk.injEq]
  refine ⟨?_, ?_⟩
  · apply List.ext_getElem?
    intro i
    simp only [List.getElem?_map, List.getElem?_mapIdx, Option.map_map]
    congr 1
    funext p
    simp only [Function.comp, plainPage, toSPage, List.map_map, SPage.mk.injEq, true_and]
    refine ⟨?_, List.map_congr_left fun _ _ => rfl, List.map_congr_left fun _ _ => rfl⟩
    apply List.map_congr_left
    intro b _
    simp only [Function.comp, plainBlock, toSBlock, List.map_map, SBlock.mk.injEq, and_true, true_and]
    apply List.map_congr_left
    intro l _
    simp only [Function.comp, List.map_map, SLine.mk.injEq]
    apply List.map_congr_left
    intro w _
    simp only [Function.comp, plainWord, toSWord, List.map_map, SWord.mk.injEq, and_true, true_and]
    apply List.map_congr_left
    intro c _
    rfl
  · funext f
    cases d.fontInfos f <;> rfl

/-- The premises are met: a page with the rows `ab` and `cd`, labelled by ranks. -/
theorem li_premises : ∃ d doc, EndedRun refPipeline 1 plConfig (apDoc [apTwo 1]) d ∧ plainDoc doc = toSDoc d ∧ CleanDoc doc ∧ DistinctIds doc ∧ (∀ roles, ¬ UnknownFont roles doc) ∧
    (docWords doc).map (·.id) = ["word-0".toList, "word-1".toList] ∧ (docWords doc).map (·.text) = ["ab".toList, "cd".toList] := by
  have key : (match apRun (apDoc [apTwo 1]) with
      | .ok (c, r) => (decide (c = 0) &&
          decide (∀ p ∈ (liDoc (toSDoc r.doc)).pages, ∀ b ∈ p.blocks, Plain b.id ∧ b.fontName = ['F']) &&
          decide (∀ p ∈ (liDoc (toSDoc r.doc)).pages, ∀ b ∈ p.blocks, ∀ l ∈ b.lines, ∀ w ∈ l.words, Plain w.id ∧ w.fontName = ['F']) &&
          decide (∀ p ∈ (liDoc (toSDoc r.doc)).pages, ∀ b ∈ p.blocks, ∀ l ∈ b.lines, ∀ w ∈ l.words, ∀ c ∈ w.chars, Plain c.id ∧ c.fontName = ['F']) &&
          decide (∀ p ∈ (liDoc (toSDoc r.doc)).pages, p.figures.length = 0 ∧ p.shapes.length = 0) && ((liDoc (toSDoc r.doc)).fontInfos ['F']).isSome &&
          decide ((((liDoc (toSDoc r.doc)).pages.flatMap (·.blocks)).map (·.id)).Nodup) && decide (((docWords (liDoc (toSDoc r.doc))).map (·.id)).Nodup) &&
          decide ((docWords (liDoc (toSDoc r.doc))).map (·.id) = ["word-0".toList, "word-1".toList]) &&
          decide ((docWords (liDoc (toSDoc r.doc))).map (·.text) = ["ab".toList, "cd".toList]))
      | _ => false) = true := by decide +kernel
  cases h1 : apRun (apDoc [apTwo 1]) with
  | throw m => rw [h1] at key; cases key
  | ub m => rw [h1] at key; simp at key
  | ok a =>
    obtain ⟨c, r⟩ := a
    rw [h1] at key
    simp only [Bool.and_eq_true, decide_eq_true_eq] at key
    obtain ⟨⟨⟨⟨⟨⟨⟨⟨⟨rfl, k2⟩, k3⟩, k4⟩, k5⟩, k6⟩, k7⟩, k8⟩, k9⟩, k10⟩ := key
    have hpF : Plain ['F'] := by decide
    refine ⟨r.doc, liDoc (toSDoc r.doc), ⟨by decide, refPipeline_ok, apDoc_parsed (ks := [1]), ⟨_, _, _, _, _, rfl, h1⟩⟩, by rw [li_plain, li_toSDoc], ⟨?_, ?_, ?_, ?_, ?_⟩, ⟨k7, k8⟩, ?_, k9, k10⟩
    · intro p hp b hb; obtain ⟨e1, e2⟩ := k2 p hp b hb; rw [e2]; exact ⟨e1, hpF⟩
    · intro p hp b hb l hl w hw; obtain ⟨e1, e2⟩ := k3 p hp b hb l hl w hw; rw [e2]; exact ⟨e1, hpF⟩
    · intro p hp b hb l hl w hw c hc; obtain ⟨e1, e2⟩ := k4 p hp b hb l hl w hw c hc; rw [e2]; exact ⟨e1, hpF⟩
    · intro p hp f hf; rw [List.length_eq_zero_iff.mp (k5 p hp).1] at hf; cases hf
    · intro p hp f hf; rw [List.length_eq_zero_iff.mp (k5 p hp).2] at hf; cases hf
    · rintro roles ⟨b, hb, l, hl, w, hw, c, hc, _, hn⟩
      obtain ⟨p, hp, hb⟩ := fo_chosen hb
      rw [(k4 p hp b hb l hl w hw c hc).2] at hn
      rw [hn] at k6; cases k6

/-- Limits of C87: nothing prevents two words from getting the same id, whatever the length of the ids. -/
theorem c87_collision_refuted (len : ℕ) : ∃ rand : ℕ → ℕ, ∃ s, Text.createRandomString rand len "word-".toList Text.alphaNum = .ok s ∧
    Text.createRandomString (fun i => rand (len + i)) len "word-".toList Text.alphaNum = .ok s := by
  refine ⟨fun _ => 0, ?_⟩
  obtain ⟨r, h, _, _⟩ := c16_random_shape (fun _ => 0) len "word-".toList Text.alphaNum (by decide)
  exact ⟨_, h, h⟩

end Verif.Props
