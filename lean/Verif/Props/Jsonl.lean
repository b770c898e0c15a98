import Verif.Props.Serializers
import Verif.Props.Text
import Verif.Spec.Json

/-!
# C36: the JSONL output
-/

namespace Verif.Props

open Verif.Serialize Verif.Spec Verif.Text

/-! ## General facts about JSON texts -/

theorem decodeJson_ge32 (s : Str) : ∀ t, decodeJson s = some t → ∀ c ∈ s, 32 ≤ c.toNat := by
  have hx : ∀ c n, hexValue c = some n → 32 ≤ c.toNat := by
    intro c n h
    unfold hexValue at h
    split_ifs at h <;> omega
  have hs : ∀ c d, simpleEscape c = some d → 32 ≤ c.toNat := by
    intro c d h
    unfold simpleEscape at h
    split_ifs at h with h1 h2 h3 h4 h5 h6 h7 h8 <;> subst_vars <;> decide
  fun_induction decodeJson s with
  | case1 => simp
  | case2 a b c d rest a' b' c' d' r h1 h2 h3 h4 h5 ih =>
    intro t _ x hx'
    simp only [List.mem_cons] at hx'
    rcases hx' with rfl | rfl | rfl | rfl | rfl | rfl | hx'
    · decide
    · decide
    · exact hx _ _ ‹_›
    · exact hx _ _ ‹_›
    · exact hx _ _ ‹_›
    · exact hx _ _ ‹_›
    · exact ih _ ‹_› _ hx'
  | case3 => intro t h; simp at h
  | case4 e rest _ c r h1 h2 ih =>
    intro t _ x hx'
    simp only [List.mem_cons] at hx'
    rcases hx' with rfl | rfl | hx'
    · decide
    · exact hs _ _ ‹_›
    · exact ih _ ‹_› _ hx'
  | case5 => intro t h; simp at h
  | case6 => intro t h; simp at h
  | case7 => intro t h; simp at h
  | case8 c rest _ _ _ hc r h ih =>
    intro t _ x hx'
    simp only [List.mem_cons] at hx'
    rcases hx' with rfl | hx'
    · omega
    · exact ih _ ‹_› _ hx'
  | case9 => intro t h; simp at h

/-- A text without quotes, backslashes and control characters. -/
def Plain (s : Str) : Prop := ∀ c ∈ s, c ≠ '"' ∧ c ≠ '\\' ∧ 32 ≤ c.toNat

instance (s : Str) : Decidable (Plain s) := by unfold Plain; infer_instance

theorem decodeJson_plain (s : Str) (h : Plain s) : decodeJson s = some s := by
  induction s with
  | nil => rfl
  | cons c s ih =>
    have hc := h c (by simp)
    have ih' := ih fun x hx => h x (List.mem_cons_of_mem _ hx)
    rw [decodeJson.eq_5 _ _ (by rintro a b c' d rest rfl; exact absurd rfl hc.2.1) (by rintro e rest rfl; exact absurd rfl hc.2.1)
      (by rintro rfl; exact absurd rfl hc.2.1), ih']
    have : ¬ (c = '"' ∨ c.toNat < 32) := by
      rintro (h1 | h1)
      · exact hc.1 h1
      · omega
    simp [this]

/-! ## Numbers -/

/-- What is assumed about the formatting of numbers by the standard library: finite numbers are printed as JSON numbers. -/
structure PrinterContract (P : Printer) : Prop where
  int : ∀ n, IsNumber (P.int n)
  dbl : ∀ x, IsNumber (P.dbl x)

instance (c : Char) : Decidable (IsDigit c) := by unfold IsDigit; infer_instance

theorem isDigit_ge {c : Char} (h : IsDigit c) : 32 ≤ c.toNat ∧ c ≠ '"' := by
  refine ⟨by unfold IsDigit at h; omega, ?_⟩
  rintro rfl
  unfold IsDigit at h
  simp at h

theorem isNumber_chars {s : Str} (h : IsNumber s) : ∀ c ∈ s, 32 ≤ c.toNat ∧ c ≠ '"' := by
  obtain ⟨sign, int, frac, exp, rfl, h1, h2, h3, h4⟩ := h
  intro c hc
  simp only [List.mem_append] at hc
  rcases hc with ((hc | hc) | hc) | hc
  · rcases h1 with rfl | rfl
    · simp at hc
    · simp at hc; subst hc; decide
  · rcases h2 with rfl | ⟨d, ds, rfl, -, hd, hds⟩
    · simp at hc; subst hc; decide
    · rcases List.mem_cons.1 hc with rfl | hc
      · exact isDigit_ge hd
      · exact isDigit_ge (hds c hc)
  · rcases h3 with rfl | ⟨ds, rfl, -, hds⟩
    · simp at hc
    · rcases List.mem_cons.1 hc with rfl | hc
      · decide
      · exact isDigit_ge (hds c hc)
  · rcases h4 with rfl | ⟨e, sg, ds, rfl, he, hsg, -, hds⟩
    · simp at hc
    · rcases List.mem_cons.1 hc with rfl | hc
      · rcases he with rfl | rfl <;> decide
      · rcases List.mem_append.1 hc with hc | hc
        · rcases hsg with rfl | rfl | rfl
          · simp at hc
          · simp at hc; subst hc; decide
          · simp at hc; subst hc; decide
        · exact isDigit_ge (hds c hc)

/-! ## Building members -/

theorem isWs_nil : IsWs [] := by intro c hc; simp at hc
theorem isWs_space : IsWs [' '] := by intro c hc; simp at hc; exact Or.inl hc

/-- Leading white space may be added to members. -/
theorem parses_ws {k : JKind} {s : Str} {v : JVal} (h : Parses k s v) (hk : k = .members) : Parses .members (' ' :: s) v := by
  have hw : ∀ {a : Str}, IsWs a → IsWs (' ' :: a) := by
    intro a ha c hc
    rcases List.mem_cons.1 hc with rfl | hc
    · exact Or.inl rfl
    · exact ha c hc
  cases h with
  | member h1 h2 h3 h4 h5 h6 => exact Parses.member (hw h1) h2 h3 h4 h5 h6
  | members h1 h2 h3 h4 h5 h6 h7 => exact Parses.members (hw h1) h2 h3 h4 h5 h6 h7
  | _ => cases hk

theorem parses_last (key : String) {value : Str} {v : JVal} (hk : Plain key.toList) (hv : Parses .value value v) :
    Parses .members (field key value []) (.obj [(key.toList, v)]) := by
  have := Parses.member isWs_nil (decodeJson_plain _ hk) isWs_nil isWs_space hv isWs_nil
  simpa [field, quoted] using this

theorem parses_field (key : String) {value rest : Str} {v : JVal} {ms : List (Str × JVal)} (hk : Plain key.toList)
    (hv : Parses .value value v) (hr : Parses .members rest (.obj ms)) :
    Parses .members (field key value sepC ++ rest) (.obj ((key.toList, v) :: ms)) := by
  have := Parses.members isWs_nil (decodeJson_plain _ hk) isWs_nil isWs_space hv isWs_nil (parses_ws hr rfl)
  simpa [field, quoted, sepC] using this

/-- The member `color`, which is followed by a comma without a space. -/
theorem parses_field' (key : String) {value rest : Str} {v : JVal} {ms : List (Str × JVal)} (hk : Plain key.toList)
    (hv : Parses .value value v) (hr : Parses .members rest (.obj ms)) :
    Parses .members (field key value [','] ++ rest) (.obj ((key.toList, v) :: ms)) := by
  have := Parses.members isWs_nil (decodeJson_plain _ hk) isWs_nil isWs_space hv isWs_nil hr
  simpa [field, quoted] using this

theorem parses_quoted {s t : Str} (h : decodeJson s = some t) : Parses .value (quoted s) (.str t) := by
  simpa [quoted] using Parses.str h

theorem parses_bool (b : Bool) : Parses .value (boolOut b) (.bool b) := by
  cases b
  · exact Parses.false
  · exact Parses.true

theorem parses_color {a b c : Str} (ha : IsNumber a) (hb : IsNumber b) (hc : IsNumber c) :
    Parses .value (['['] ++ a ++ [','] ++ b ++ [','] ++ c ++ [']']) (.arr [.num a, .num b, .num c]) := by
  have h3 := Parses.element isWs_nil (Parses.num hc) isWs_nil
  have h2 := Parses.elements isWs_nil (Parses.num hb) isWs_nil h3
  have h1 := Parses.elements isWs_nil (Parses.num ha) isWs_nil h2
  simpa using Parses.arr h1

theorem parses_origin : Parses .members (field "origin" (quoted "pdftotext++".toList) [])
    (.obj [("origin".toList, .str "pdftotext++".toList)]) :=
  parses_last "origin" (by decide) (parses_quoted (decodeJson_plain _ (by decide)))

/-! ## The records -/

/-- The members describing a position. -/
def posMembers (P : Printer) (b : Box) : List (Str × JVal) :=
  [("page".toList, .num (P.int b.pageNum)), ("minX".toList, .num (P.dbl b.leftX)), ("minY".toList, .num (P.dbl b.upperY)),
   ("maxX".toList, .num (P.dbl b.rightX)), ("maxY".toList, .num (P.dbl b.lowerY))]

/-- The last member of every record. -/
def originMember : List (Str × JVal) := [("origin".toList, .str "pdftotext++".toList)]

/-- The JSON object expected for a page. -/
def pageJson (P : Printer) (p : SPage) : JVal :=
  .obj ([("type".toList, .str "page".toList), ("num".toList, .num (P.int p.pageNum)),
    ("width".toList, .num (P.dbl (p.clipRightX - p.clipLeftX))),
    ("height".toList, .num (P.dbl (p.clipLowerY - p.clipUpperY)))] ++ originMember)

/-- The JSON object expected for a figure (`"figure"`) or shape (`"shape"`). -/
def rectJson (P : Printer) (type : String) (f : SRect) : JVal :=
  .obj ([("type".toList, .str type.toList), ("rank".toList, .num (P.int f.rank)), ("id".toList, .str f.id)] ++
    posMembers P f.pos ++ originMember)

/-- The JSON object expected for a word. -/
def wordJson (P : Printer) (b : SBlock) (w : SWord) : JVal :=
  .obj ([("type".toList, .str "word".toList), ("id".toList, .str w.id), ("rank".toList, .num (P.int w.rank))] ++
    posMembers P w.pos ++ [("font".toList, .str w.fontName), ("fontSize".toList, .num (P.dbl w.fontSize)),
    ("text".toList, .str w.text), ("block".toList, .str b.id)] ++ originMember)

/-- The JSON object expected for a text block. -/
def blockJson (P : Printer) (b : SBlock) : JVal :=
  .obj ([("type".toList, .str "block".toList), ("id".toList, .str b.id), ("rank".toList, .num (P.int b.rank))] ++
    posMembers P b.pos ++ [("font".toList, .str b.fontName), ("fontSize".toList, .num (P.dbl b.fontSize)),
    ("text".toList, .str b.text), ("role".toList, .str (roleName b.role))] ++ originMember)

/-- The JSON object expected for a character: the text is that of the combination if the character carries a diacritical
mark. -/
def charJson (P : Printer) (b : SBlock) (w : SWord) (c : SChar) (f : FontFlags) : JVal :=
  .obj ([("type".toList, .str "char".toList), ("id".toList, .str c.id), ("rank".toList, .num (P.int c.rank))] ++
    posMembers P c.pos ++ [("wMode".toList, .num (P.int c.pos.wMode)), ("rotation".toList, .num (P.int c.pos.rotation)),
    ("font".toList, .str c.fontName), ("fontSize".toList, .num (P.dbl c.fontSize)), ("weight".toList, .num (P.int f.weight)),
    ("italic".toList, .bool f.isItalic), ("type-3".toList, .bool f.isType3),
    ("color".toList, .arr [.num (P.dbl c.color.1), .num (P.dbl c.color.2.1), .num (P.dbl c.color.2.2)]),
    ("opacity".toList, .num (P.dbl c.opacity)), ("text".toList, .str (if c.isBase then c.withMark else c.text)),
    ("word".toList, .str w.id), ("block".toList, .str b.id)] ++ originMember)

theorem parses_record {s : Str} {ms : List (Str × JVal)} (h : Parses .members s (.obj ms)) :
    Parses .value (['{'] ++ s ++ ['}']) (.obj ms) := by simpa using Parses.obj h

theorem parses_pos {P : Printer} (hP : PrinterContract P) (b : Box) {rest : Str} {ms : List (Str × JVal)}
    (h : Parses .members rest (.obj ms)) : Parses .members (posFields P b ++ rest) (.obj (posMembers P b ++ ms)) := by
  simp only [posFields, posMembers, List.append_assoc, List.cons_append, List.nil_append]
  exact parses_field "page" (by decide) (.num (hP.int _)) (parses_field "minX" (by decide) (.num (hP.dbl _))
    (parses_field "minY" (by decide) (.num (hP.dbl _)) (parses_field "maxX" (by decide) (.num (hP.dbl _))
    (parses_field "maxY" (by decide) (.num (hP.dbl _)) h))))

/-- A quoted plain text. -/
theorem parses_plain {s : Str} (h : Plain s) : Parses .value (quoted s) (.str s) := parses_quoted (decodeJson_plain _ h)

theorem page_parses {P : Printer} (hP : PrinterContract P) (p : SPage) :
    Parses .value (pageRecord P p) (pageJson P p) := by
  have h := parses_record (parses_field "type" (by decide) (parses_plain (s := "page".toList) (by decide))
    (parses_field "num" (by decide) (.num (hP.int p.pageNum))
    (parses_field "width" (by decide) (.num (hP.dbl (p.clipRightX - p.clipLeftX)))
    (parses_field "height" (by decide) (.num (hP.dbl (p.clipLowerY - p.clipUpperY))) parses_origin))))
  simpa only [pageRecord, pageJson, originMember, tailFields, List.append_assoc, List.cons_append, List.nil_append] using h

theorem rect_parses {P : Printer} (hP : PrinterContract P) (type : String) (ht : Plain type.toList) (f : SRect) (hid : Plain f.id) :
    Parses .value (rectRecord P type f) (rectJson P type f) := by
  have h := parses_record (parses_field "type" (by decide) (parses_plain ht)
    (parses_field "rank" (by decide) (.num (hP.int f.rank))
    (parses_field "id" (by decide) (parses_plain hid) (parses_pos hP f.pos parses_origin))))
  simpa only [rectRecord, rectJson, originMember, tailFields, List.append_assoc, List.cons_append, List.nil_append] using h

theorem word_parses {P : Printer} (hP : PrinterContract P) (b : SBlock) (w : SWord) (hid : Plain w.id)
    (hf : Plain w.fontName) (hb : Plain b.id) : Parses .value (wordRecord P b w) (wordJson P b w) := by
  have h := parses_record (parses_field "type" (by decide) (parses_plain (s := "word".toList) (by decide))
    (parses_field "id" (by decide) (parses_plain hid)
    (parses_field "rank" (by decide) (.num (hP.int w.rank))
    (parses_pos hP w.pos (parses_field "font" (by decide) (parses_plain hf)
    (parses_field "fontSize" (by decide) (.num (hP.dbl w.fontSize))
    (parses_field "text" (by decide) (parses_quoted (c11_decode_escape w.text))
    (parses_field "block" (by decide) (parses_plain hb) parses_origin))))))))
  simpa only [wordRecord, wordJson, originMember, tailFields, List.append_assoc, List.cons_append, List.nil_append] using h

theorem roleName_plain (r : Role) : Plain (roleName r) := by cases r <;> decide

theorem block_parses {P : Printer} (hP : PrinterContract P) (b : SBlock)
    (hf : Plain b.fontName) (hb : Plain b.id) : Parses .value (blockRecord P b) (blockJson P b) := by
  have h := parses_record (parses_field "type" (by decide) (parses_plain (s := "block".toList) (by decide))
    (parses_field "id" (by decide) (parses_plain hb)
    (parses_field "rank" (by decide) (.num (hP.int b.rank))
    (parses_pos hP b.pos (parses_field "font" (by decide) (parses_plain hf)
    (parses_field "fontSize" (by decide) (.num (hP.dbl b.fontSize))
    (parses_field "text" (by decide) (parses_quoted (c11_decode_escape b.text))
    (parses_field "role" (by decide) (parses_plain (roleName_plain b.role)) parses_origin))))))))
  simpa only [blockRecord, blockJson, originMember, tailFields, List.append_assoc, List.cons_append, List.nil_append] using h

theorem char_parses {P : Printer} (hP : PrinterContract P) (b : SBlock) (w : SWord) (c : SChar) (f : FontFlags)
    (hid : Plain c.id) (hf : Plain c.fontName) (hw : Plain w.id) (hb : Plain b.id) :
    Parses .value (charRecord P b w c f) (charJson P b w c f) := by
  have h := parses_record (parses_field "type" (by decide) (parses_plain (s := "char".toList) (by decide))
    (parses_field "id" (by decide) (parses_plain hid)
    (parses_field "rank" (by decide) (.num (hP.int c.rank))
    (parses_pos hP c.pos (parses_field "wMode" (by decide) (.num (hP.int c.pos.wMode))
    (parses_field "rotation" (by decide) (.num (hP.int c.pos.rotation))
    (parses_field "font" (by decide) (parses_plain hf)
    (parses_field "fontSize" (by decide) (.num (hP.dbl c.fontSize))
    (parses_field "weight" (by decide) (.num (hP.int f.weight))
    (parses_field "italic" (by decide) (parses_bool f.isItalic)
    (parses_field "type-3" (by decide) (parses_bool f.isType3)
    (parses_field' "color" (by decide) (parses_color (hP.dbl c.color.1) (hP.dbl c.color.2.1) (hP.dbl c.color.2.2))
    (parses_field "opacity" (by decide) (.num (hP.dbl c.opacity))
    (parses_field "text" (by decide) (parses_quoted (c11_decode_escape (charText c)))
    (parses_field "word" (by decide) (parses_plain hw)
    (parses_field "block" (by decide) (parses_plain hb) parses_origin))))))))))))))))
  simpa only [charRecord, charJson, charText, originMember, tailFields, List.append_assoc, List.cons_append, List.nil_append] using h

/-! ## No record contains a newline -/

/-- All characters are printable or above. -/
def NoCtl (s : Str) : Prop := ∀ c ∈ s, 32 ≤ c.toNat

instance (s : Str) : Decidable (NoCtl s) := by unfold NoCtl; infer_instance

theorem NoCtl.app {a b : Str} (ha : NoCtl a) (hb : NoCtl b) : NoCtl (a ++ b) := by
  intro c hc
  rcases List.mem_append.1 hc with h | h
  · exact ha c h
  · exact hb c h

theorem noCtl_num {s : Str} (h : IsNumber s) : NoCtl s := fun c hc => (isNumber_chars h c hc).1

theorem noCtl_quoted {s : Str} (h : NoCtl s) : NoCtl (quoted s) := by
  have hq : NoCtl ['"'] := by decide
  exact (hq.app h).app hq

theorem noCtl_plain {s : Str} (h : Plain s) : NoCtl s := fun c hc => (h c hc).2.2

theorem noCtl_bool (b : Bool) : NoCtl (boolOut b) := by cases b <;> decide

theorem noCtl_field {key : String} {value sep : Str} (hk : NoCtl key.toList) (hv : NoCtl value) (hs : NoCtl sep) :
    NoCtl (field key value sep) :=
  (((noCtl_quoted hk).app (by decide : NoCtl [':', ' '])).app hv).app hs

theorem noCtl_pos {P : Printer} (hP : PrinterContract P) (b : Box) : NoCtl (posFields P b) := by
  unfold posFields
  refine NoCtl.app (NoCtl.app (NoCtl.app (NoCtl.app ?_ ?_) ?_) ?_) ?_ <;>
    refine noCtl_field (by decide) (noCtl_num ?_) (by decide)
  · exact hP.int _
  all_goals exact hP.dbl _

theorem noCtl_tail : NoCtl tailFields := by decide

theorem noCtl_nl {s : Str} (h : NoCtl s) : '\n' ∉ s := by
  intro hc
  have := h _ hc
  simp at this

theorem noCtl_escape (s : Str) : NoCtl (escapeJson s) := c11_escape_no_control s

/-- Splits a concatenation of fields. -/
macro "fields" : tactic => `(tactic| (repeat' (first
  | with_reducible exact noCtl_tail
  | with_reducible exact noCtl_pos (by assumption) _
  | (with_reducible refine noCtl_field (by decide) ?_ (by decide))
  | (with_reducible refine NoCtl.app ?_ ?_)
  | with_reducible exact noCtl_bool _
  | (with_reducible refine noCtl_quoted ?_)
  | with_reducible exact noCtl_plain (by assumption)
  | with_reducible exact noCtl_escape _
  | with_reducible exact noCtl_num (PrinterContract.int (by assumption) _)
  | with_reducible exact noCtl_num (PrinterContract.dbl (by assumption) _)
  | with_reducible exact (noCtl_plain (roleName_plain _))
  | decide)))

theorem page_noCtl {P : Printer} (hP : PrinterContract P) (p : SPage) : NoCtl (pageRecord P p) := by
  unfold pageRecord; fields

theorem rect_noCtl {P : Printer} (hP : PrinterContract P) (type : String) (ht : Plain type.toList) (f : SRect) (hid : Plain f.id) :
    NoCtl (rectRecord P type f) := by
  unfold rectRecord; fields

theorem word_noCtl {P : Printer} (hP : PrinterContract P) (b : SBlock) (w : SWord) (hid : Plain w.id)
    (hf : Plain w.fontName) (hb : Plain b.id) : NoCtl (wordRecord P b w) := by
  unfold wordRecord; fields

theorem block_noCtl {P : Printer} (hP : PrinterContract P) (b : SBlock)
    (hf : Plain b.fontName) (hb : Plain b.id) : NoCtl (blockRecord P b) := by
  unfold blockRecord; fields

theorem char_noCtl {P : Printer} (hP : PrinterContract P) (b : SBlock) (w : SWord) (c : SChar) (f : FontFlags)
    (hid : Plain c.id) (hf : Plain c.fontName) (hw : Plain w.id) (hb : Plain b.id) :
    NoCtl (charRecord P b w c f) := by
  unfold charRecord; fields

/-! ## The whole output -/

/-- The blocks whose role is selected, in document order. -/
def chosenBlocks (roles : List Role) (doc : SDoc) : List SBlock :=
  (doc.pages.flatMap (·.blocks)).filter fun b => decide (b.role ∈ roles)

theorem selectedBlocks_eq (roles : List Role) (doc : SDoc) : selectedBlocks roles doc = chosenBlocks roles doc := by
  unfold selectedBlocks chosenBlocks
  induction doc.pages with
  | nil => rfl
  | cons p ps ih =>
    have : selected roles = fun b => decide (b.role ∈ roles) := funext (selected_eq roles)
    rw [List.flatMap_cons, ih, List.flatMap_cons, List.filter_append, this]

/-- The objects expected for a unit type. -/
def unitJson (P : Printer) (roles : List Role) (doc : SDoc) : Unit' → List JVal
  | .pages => doc.pages.map (pageJson P)
  | .characters => (chosenBlocks roles doc).flatMap fun b => (b.lines.flatMap (·.words)).flatMap fun w =>
      (w.chars.filter fun c => !c.isMark).map fun c => charJson P b w c ((doc.fontInfos c.fontName).getD {})
  | .words => (chosenBlocks roles doc).flatMap fun b => (b.lines.flatMap (·.words)).map (wordJson P b)
  | .textBlocks => (chosenBlocks roles doc).map (blockJson P)
  | .figures => (doc.pages.flatMap (·.figures)).map (rectJson P "figure")
  | .shapes => (doc.pages.flatMap (·.shapes)).map (rectJson P "shape")
  | .textLines => []

/-- All ids and font names of the document are free of quotes, backslashes and control characters. -/
structure CleanDoc (doc : SDoc) : Prop where
  block : ∀ p ∈ doc.pages, ∀ b ∈ p.blocks, Plain b.id ∧ Plain b.fontName
  word : ∀ p ∈ doc.pages, ∀ b ∈ p.blocks, ∀ l ∈ b.lines, ∀ w ∈ l.words, Plain w.id ∧ Plain w.fontName
  char : ∀ p ∈ doc.pages, ∀ b ∈ p.blocks, ∀ l ∈ b.lines, ∀ w ∈ l.words, ∀ c ∈ w.chars, Plain c.id ∧ Plain c.fontName
  figure : ∀ p ∈ doc.pages, ∀ f ∈ p.figures, Plain f.id
  shape : ∀ p ∈ doc.pages, ∀ f ∈ p.shapes, Plain f.id

/-- A printed character of a selected block whose font is unknown. -/
def UnknownFont (roles : List Role) (doc : SDoc) : Prop :=
  ∃ b ∈ chosenBlocks roles doc, ∃ l ∈ b.lines, ∃ w ∈ l.words, ∃ c ∈ w.chars,
    c.isMark = false ∧ doc.fontInfos c.fontName = none

/-- `out` consists of one line per value, each a JSON text for that value. -/
def IsJsonLines (out : Str) (vs : List JVal) : Prop :=
  ∃ recs : List Str, out = recs.flatMap (· ++ ['\n']) ∧ (∀ r ∈ recs, '\n' ∉ r) ∧ List.Forall₂ (Parses .value) recs vs

theorem isJsonLines_nil : IsJsonLines [] [] := ⟨[], rfl, by simp, .nil⟩

theorem isJsonLines_append {a b : Str} {vs ws : List JVal} (ha : IsJsonLines a vs) (hb : IsJsonLines b ws) :
    IsJsonLines (a ++ b) (vs ++ ws) := by
  obtain ⟨r, rfl, h1, h2⟩ := ha
  obtain ⟨s, rfl, h3, h4⟩ := hb
  refine ⟨r ++ s, by simp, ?_, List.rel_append h2 h4⟩
  intro x hx
  rcases List.mem_append.1 hx with hx | hx
  · exact h1 x hx
  · exact h3 x hx

theorem isJsonLines_one {r : Str} {v : JVal} (h : Parses .value r v) (hn : NoCtl r) : IsJsonLines (lineOf r) [v] :=
  ⟨[r], by simp [lineOf], by simpa using noCtl_nl hn, .cons h .nil⟩

theorem isJsonLines_flatMap {α : Type} (l : List α) (f : α → Str) (g : α → List JVal)
    (h : ∀ a ∈ l, IsJsonLines (f a) (g a)) : IsJsonLines (l.flatMap f) (l.flatMap g) := by
  induction l with
  | nil => exact isJsonLines_nil
  | cons a l ih =>
    rw [List.flatMap_cons, List.flatMap_cons]
    exact isJsonLines_append (h a (by simp)) (ih fun b hb => h b (List.mem_cons_of_mem _ hb))

theorem isJsonLines_map {α : Type} (l : List α) (f : α → Str) (g : α → JVal)
    (h : ∀ a ∈ l, IsJsonLines (f a) [g a]) : IsJsonLines (l.flatMap f) (l.map g) := by
  have := isJsonLines_flatMap l f (fun a => [g a]) h
  simpa [← List.map_eq_flatMap] using this

theorem flatMap_flatMap_pages {α : Type} (ps : List SPage) (g : SPage → List α) (f : α → Str) :
    (ps.flatMap fun p => (g p).flatMap f) = (ps.flatMap g).flatMap f := by
  induction ps with
  | nil => rfl
  | cons p ps ih => simp [ih]

/-! ### Characters -/

/-- Output of the characters once all fonts are known. -/
def charLines (P : Printer) (doc : SDoc) (b : SBlock) (w : SWord) (cs : List SChar) : Str :=
  (cs.filter fun c => !c.isMark).flatMap fun c => lineOf (charRecord P b w c ((doc.fontInfos c.fontName).getD {}))

theorem serializeChars_eq (P : Printer) (doc : SDoc) (b : SBlock) (w : SWord) (cs : List SChar) :
    (∃ c ∈ cs, c.isMark = false ∧ doc.fontInfos c.fontName = none) ∧
        serializeChars P doc b w cs = .throw "out_of_range" ∨
    (¬ ∃ c ∈ cs, c.isMark = false ∧ doc.fontInfos c.fontName = none) ∧
        serializeChars P doc b w cs = .ok (charLines P doc b w cs) := by
  induction cs with
  | nil => right; simp [serializeChars, charLines]
  | cons c cs ih =>
    rw [serializeChars]
    by_cases hm : c.isMark = true
    · simpa [hm, charLines] using ih
    · have hm' : c.isMark = false := by simpa using hm
      rcases hf : doc.fontInfos c.fontName with _ | f
      · left
        refine ⟨⟨c, by simp, hm', hf⟩, by simp [hm', hf]⟩
      · rcases ih with ⟨⟨x, hx, h1⟩, h2⟩ | ⟨h1, h2⟩
        · left
          refine ⟨⟨x, List.mem_cons_of_mem _ hx, h1⟩, by simp [hm', hf, h2, Outcome.bind]⟩
        · right
          refine ⟨?_, by simp [hm', hf, h2, Outcome.bind, charLines]⟩
          rintro ⟨x, hx, h3, h4⟩
          rcases List.mem_cons.1 hx with rfl | hx
          · rw [hf] at h4; simp at h4
          · exact h1 ⟨x, hx, h3, h4⟩

theorem serializeWordChars_eq (P : Printer) (doc : SDoc) (b : SBlock) (ws : List SWord) :
    (∃ w ∈ ws, ∃ c ∈ w.chars, c.isMark = false ∧ doc.fontInfos c.fontName = none) ∧
        serializeWordChars P doc b ws = .throw "out_of_range" ∨
    (¬ ∃ w ∈ ws, ∃ c ∈ w.chars, c.isMark = false ∧ doc.fontInfos c.fontName = none) ∧
        serializeWordChars P doc b ws = .ok (ws.flatMap fun w => charLines P doc b w w.chars) := by
  induction ws with
  | nil => right; simp [serializeWordChars]
  | cons w ws ih =>
    rw [serializeWordChars]
    rcases serializeChars_eq P doc b w w.chars with ⟨h1, h2⟩ | ⟨h1, h2⟩
    · left; exact ⟨⟨w, by simp, h1⟩, by simp [h2, Outcome.bind]⟩
    · rcases ih with ⟨⟨x, hx, h3⟩, h4⟩ | ⟨h3, h4⟩
      · left; exact ⟨⟨x, List.mem_cons_of_mem _ hx, h3⟩, by simp [h2, h4, Outcome.bind]⟩
      · right
        refine ⟨?_, by simp [h2, h4, Outcome.bind]⟩
        rintro ⟨x, hx, h5⟩
        rcases List.mem_cons.1 hx with rfl | hx
        · exact h1 h5
        · exact h3 ⟨x, hx, h5⟩

theorem serializeBlockChars_eq (P : Printer) (doc : SDoc) (bs : List SBlock) :
    (∃ b ∈ bs, ∃ w ∈ b.words, ∃ c ∈ w.chars, c.isMark = false ∧ doc.fontInfos c.fontName = none) ∧
        serializeBlockChars P doc bs = .throw "out_of_range" ∨
    (¬ ∃ b ∈ bs, ∃ w ∈ b.words, ∃ c ∈ w.chars, c.isMark = false ∧ doc.fontInfos c.fontName = none) ∧
        serializeBlockChars P doc bs = .ok (bs.flatMap fun b => b.words.flatMap fun w => charLines P doc b w w.chars) := by
  induction bs with
  | nil => right; simp [serializeBlockChars]
  | cons b bs ih =>
    rw [serializeBlockChars]
    rcases serializeWordChars_eq P doc b b.words with ⟨h1, h2⟩ | ⟨h1, h2⟩
    · left; exact ⟨⟨b, by simp, h1⟩, by simp [h2, Outcome.bind]⟩
    · rcases ih with ⟨⟨x, hx, h3⟩, h4⟩ | ⟨h3, h4⟩
      · left; exact ⟨⟨x, List.mem_cons_of_mem _ hx, h3⟩, by simp [h2, h4, Outcome.bind]⟩
      · right
        refine ⟨?_, by simp [h2, h4, Outcome.bind]⟩
        rintro ⟨x, hx, h5⟩
        rcases List.mem_cons.1 hx with rfl | hx
        · exact h1 h5
        · exact h3 ⟨x, hx, h5⟩

theorem unknownFont_iff (roles : List Role) (doc : SDoc) : UnknownFont roles doc ↔
    ∃ b ∈ chosenBlocks roles doc, ∃ w ∈ b.words, ∃ c ∈ w.chars, c.isMark = false ∧ doc.fontInfos c.fontName = none := by
  unfold UnknownFont SBlock.words
  constructor
  · rintro ⟨b, hb, l, hl, w, hw, h⟩
    exact ⟨b, hb, w, List.mem_flatMap.2 ⟨l, hl, hw⟩, h⟩
  · rintro ⟨b, hb, w, hw, h⟩
    obtain ⟨l, hl, hw⟩ := List.mem_flatMap.1 hw
    exact ⟨b, hb, l, hl, w, hw, h⟩

theorem mem_chosen {roles : List Role} {doc : SDoc} {b : SBlock} (h : b ∈ chosenBlocks roles doc) :
    ∃ p ∈ doc.pages, b ∈ p.blocks := by
  simpa using List.mem_flatMap.1 (List.mem_of_mem_filter h)

theorem unit_lines {P : Printer} (hP : PrinterContract P) (roles : List Role) {doc : SDoc} (hc : CleanDoc doc) (u : Unit')
    (hu : u = .characters → ¬ UnknownFont roles doc) :
    ∃ out, serializeUnit P roles doc u = .ok out ∧ IsJsonLines out (unitJson P roles doc u) := by
  cases u with
  | pages =>
    exact ⟨_, rfl, isJsonLines_map _ _ _ fun p _ => isJsonLines_one (page_parses hP p) (page_noCtl hP p)⟩
  | textLines => exact ⟨_, rfl, isJsonLines_nil⟩
  | figures =>
    refine ⟨_, rfl, ?_⟩
    rw [serializeFigures, flatMap_flatMap_pages, unitJson]
    refine isJsonLines_map _ _ _ fun f hf => ?_
    obtain ⟨p, hp, hf⟩ := List.mem_flatMap.1 hf
    exact isJsonLines_one (rect_parses hP _ (by decide) f (hc.figure p hp f hf)) (rect_noCtl hP _ (by decide) f (hc.figure p hp f hf))
  | shapes =>
    refine ⟨_, rfl, ?_⟩
    rw [serializeShapes, flatMap_flatMap_pages, unitJson]
    refine isJsonLines_map _ _ _ fun f hf => ?_
    obtain ⟨p, hp, hf⟩ := List.mem_flatMap.1 hf
    exact isJsonLines_one (rect_parses hP _ (by decide) f (hc.shape p hp f hf)) (rect_noCtl hP _ (by decide) f (hc.shape p hp f hf))
  | textBlocks =>
    refine ⟨_, rfl, ?_⟩
    rw [serializeTextBlocks, selectedBlocks_eq, unitJson]
    refine isJsonLines_map _ _ _ fun b hb => ?_
    obtain ⟨p, hp, hb⟩ := mem_chosen hb
    have := hc.block p hp b hb
    exact isJsonLines_one (block_parses hP b this.2 this.1) (block_noCtl hP b this.2 this.1)
  | words =>
    refine ⟨_, rfl, ?_⟩
    rw [serializeWords, selectedBlocks_eq, unitJson]
    refine isJsonLines_flatMap _ _ _ fun b hb => isJsonLines_map _ _ _ fun w hw => ?_
    obtain ⟨p, hp, hb⟩ := mem_chosen hb
    obtain ⟨l, hl, hw⟩ := List.mem_flatMap.1 hw
    have h1 := hc.block p hp b hb
    have h2 := hc.word p hp b hb l hl w hw
    exact isJsonLines_one (word_parses hP b w h2.1 h2.2 h1.1) (word_noCtl hP b w h2.1 h2.2 h1.1)
  | characters =>
    have hu' := hu rfl
    rw [unknownFont_iff] at hu'
    rw [serializeUnit, serializeCharacters, selectedBlocks_eq, unitJson]
    rcases serializeBlockChars_eq P doc (chosenBlocks roles doc) with ⟨h1, -⟩ | ⟨-, h2⟩
    · exact absurd h1 hu'
    · refine ⟨_, h2, ?_⟩
      refine isJsonLines_flatMap _ _ _ fun b hb => isJsonLines_flatMap _ _ _ fun w hw => ?_
      refine isJsonLines_map _ _ _ fun c hcm => ?_
      have hcm' := List.mem_of_mem_filter hcm
      obtain ⟨p, hp, hb⟩ := mem_chosen hb
      obtain ⟨l, hl, hw⟩ := List.mem_flatMap.1 hw
      have h1 := hc.block p hp b hb
      have h2 := hc.word p hp b hb l hl w hw
      have h3 := hc.char p hp b hb l hl w hw c hcm'
      exact isJsonLines_one (char_parses hP b w c _ h3.1 h3.2 h2.1 h1.1) (char_noCtl hP b w c _ h3.1 h3.2 h2.1 h1.1)

/-- **C36.** For every document whose ids and font names are free of quotes, backslashes and control
characters, every set of units in any iteration order and every selection of roles: the output consists of one line per selected element, in order, and the
line is a JSON text (RFC 8259) for exactly the expected object, in particular its text fields decode to the extracted
text. Missing: font names with special characters and the unit `lines`, see below. -/
theorem c36_json_lines_partial {P : Printer} (hP : PrinterContract P) (roles : List Role) {doc : SDoc} (hc : CleanDoc doc)
    (units : List Unit') (hu : .characters ∈ units → ¬ UnknownFont roles doc) :
    ∃ out, jsonl P roles doc units = .ok out ∧ IsJsonLines out (units.flatMap (unitJson P roles doc)) := by
  induction units with
  | nil => exact ⟨[], rfl, isJsonLines_nil⟩
  | cons u us ih =>
    obtain ⟨a, ha, ha'⟩ := unit_lines hP roles hc u (by rintro rfl; exact hu (by simp))
    obtain ⟨b, hb, hb'⟩ := ih fun h => hu (List.mem_cons_of_mem _ h)
    exact ⟨a ++ b, by simp [jsonl, ha, hb, Outcome.bind], isJsonLines_append ha' hb'⟩

/-- **C36.** The output fails exactly if characters are requested and a printed character of a selected block has a
font name under which no font information is stored (C51 shows that the parser never produces such a character). -/
theorem c36_throws_iff (P : Printer) (roles : List Role) (doc : SDoc) (units : List Unit') :
    ((jsonl P roles doc units).isThrow = true ↔ .characters ∈ units ∧ UnknownFont roles doc) ∧
    (jsonl P roles doc units).isUb = false := by
  have hchar : UnknownFont roles doc ∧ serializeCharacters P roles doc = .throw "out_of_range" ∨
      ¬ UnknownFont roles doc ∧ ∃ out, serializeCharacters P roles doc = .ok out := by
    rw [unknownFont_iff, serializeCharacters, selectedBlocks_eq]
    rcases serializeBlockChars_eq P doc (chosenBlocks roles doc) with ⟨h1, h2⟩ | ⟨h1, h2⟩
    · exact Or.inl ⟨h1, h2⟩
    · exact Or.inr ⟨h1, _, h2⟩
  have key : (.characters ∈ units ∧ UnknownFont roles doc ∧ jsonl P roles doc units = .throw "out_of_range") ∨
      (¬ (.characters ∈ units ∧ UnknownFont roles doc) ∧ ∃ out, jsonl P roles doc units = .ok out) := by
    induction units with
    | nil => right; exact ⟨by simp, [], rfl⟩
    | cons u us ih =>
      by_cases hu : u = .characters
      · subst hu
        rcases hchar with ⟨h1, h2⟩ | ⟨h1, out, h2⟩
        · left; exact ⟨by simp, h1, by simp [jsonl, serializeUnit, h2, Outcome.bind]⟩
        · rcases ih with ⟨-, h, -⟩ | ⟨-, o, h⟩
          · exact absurd h h1
          · right; exact ⟨fun h => h1 h.2, out ++ o, by simp [jsonl, serializeUnit, h2, h, Outcome.bind]⟩
      · obtain ⟨a, ha⟩ : ∃ a, serializeUnit P roles doc u = .ok a := by
          cases u <;> first | exact ⟨_, rfl⟩ | exact absurd rfl hu
        rcases ih with ⟨h1, h2, h3⟩ | ⟨h1, o, h2⟩
        · left; exact ⟨List.mem_cons_of_mem _ h1, h2, by simp [jsonl, ha, h3, Outcome.bind]⟩
        · right
          refine ⟨?_, a ++ o, by simp [jsonl, ha, h2, Outcome.bind]⟩
          rintro ⟨h3, h4⟩
          rcases List.mem_cons.1 h3 with h3 | h3
          · exact hu h3.symm
          · exact h1 ⟨h3, h4⟩
  rcases key with ⟨h1, h2, h3⟩ | ⟨h1, o, h2⟩
  · simp [h1, h2, h3, Outcome.isThrow, Outcome.isUb]
  · simp only [h2, Outcome.isThrow, Outcome.isUb, Bool.false_eq_true, false_iff, and_true]
    exact h1

/-- **C36.** Ids as the program creates them (`createRandomString`) are clean. -/
theorem c36_ids_are_clean (rand : ℕ → ℕ) (len : ℕ) (pre : String)
    (hpre : pre ∈ ["char-", "figure-", "shape-", "graphic-", "line-", "segment-", "block-", "word-"]) :
    ∃ s, createRandomString rand len pre.toList alphaNum = .ok s ∧ Plain s := by
  obtain ⟨r, h1, -, h3⟩ := c16_random_shape rand len pre.toList alphaNum (by decide)
  refine ⟨_, h1, ?_⟩
  have ha : Plain alphaNum := by decide +kernel
  have hp : Plain pre.toList := by
    simp only [List.mem_cons, List.not_mem_nil, or_false] at hpre
    rcases hpre with rfl | rfl | rfl | rfl | rfl | rfl | rfl | rfl <;> decide
  intro c hc
  rcases List.mem_append.1 hc with hc | hc
  · exact hp c hc
  · exact ha c (List.dropLast_subset _ (h3 c hc))

/-- **C36, refuted part.** The unit type `lines` is accepted but produces no output for any document. -/
theorem c36_lines_unit_ignored (P : Printer) (roles : List Role) (doc : SDoc) :
    jsonl P roles doc [.textLines] = .ok [] := rfl

/-! ### Font names are not escaped -/

/-- Scanner states: outside of a string, inside, after a backslash. -/
inductive Scan where
  | out | ins | esc
deriving DecidableEq

/-- One step of the scanner. -/
def scanStep : Scan → Char → Scan
  | .out, c => if c = '"' then .ins else .out
  | .ins, c => if c = '\\' then .esc else if c = '"' then .out else .ins
  | .esc, _ => .ins

theorem scan_out {s : Str} (h : '"' ∉ s) : s.foldl scanStep .out = .out := by
  induction s with
  | nil => rfl
  | cons c s ih =>
    simp only [List.mem_cons, not_or] at h
    rw [List.foldl_cons, scanStep, if_neg (Ne.symm h.1), ih h.2]

theorem scan_ins (s : Str) : ∀ t, decodeJson s = some t → s.foldl scanStep .ins = .ins := by
  have hx : ∀ c n, hexValue c = some n → scanStep .ins c = .ins := by
    intro c n h
    have : c ≠ '\\' ∧ c ≠ '"' := by
      constructor <;> rintro rfl <;> revert h <;> simp [hexValue]
    simp [scanStep, this]
  fun_induction decodeJson s with
  | case1 => simp
  | case2 a b c d rest a' b' c' d' r h1 h2 h3 h4 h5 ih =>
    intro t _
    have e : scanStep (scanStep .ins '\\') 'u' = .ins := by decide
    simp only [List.foldl_cons, e]
    rw [hx a _ ‹_›, hx b _ ‹_›, hx c _ ‹_›, hx d _ ‹_›]
    exact ih _ ‹_›
  | case3 => intro t h; simp at h
  | case4 e rest _ c r h1 h2 ih =>
    intro t _
    have e : ∀ x, scanStep (scanStep .ins '\\') x = .ins := by intro x; simp [scanStep]
    simp only [List.foldl_cons, e]
    exact ih _ ‹_›
  | case5 => intro t h; simp at h
  | case6 => intro t h; simp at h
  | case7 => intro t h; simp at h
  | case8 c rest hn1 hn2 hn3 hc r h ih =>
    intro t _
    have hb : c ≠ '\\' := by
      rintro rfl
      cases rest with
      | nil => exact hn3 rfl rfl
      | cons e rest => exact hn2 e rest rfl rfl
    have hq : c ≠ '"' := fun h => hc (Or.inl h)
    rw [List.foldl_cons, scanStep, if_neg hb, if_neg hq]
    exact ih _ ‹_›
  | case9 => intro t h; simp at h

theorem scan_ws {a : Str} (h : IsWs a) : a.foldl scanStep .out = .out := by
  apply scan_out
  intro hq
  have := h _ hq
  simp at this

/-- Every JSON text ends outside of a string. -/
theorem scan_parses {k : JKind} {s : Str} {v : JVal} (h : Parses k s v) : s.foldl scanStep .out = .out := by
  have hstr : ∀ {s t}, decodeJson s = some t → ('"' :: s ++ ['"']).foldl scanStep .out = .out := by
    intro s t h
    have e : scanStep .out '"' = .ins := by decide
    simp only [List.cons_append, List.foldl_cons, List.foldl_append, e, scan_ins s t h, List.foldl_nil]
    decide
  have hch : ∀ c, c ≠ '"' → scanStep .out c = .out := fun c hc => by simp [scanStep, hc]
  induction h with
  | null => decide
  | true => decide
  | false => decide
  | num h => exact scan_out fun hq => (isNumber_chars h _ hq).2 rfl
  | str h => exact hstr h
  | arrEmpty h => simp [List.foldl_append, hch, scan_ws h]
  | arr _ ih => simp [List.foldl_append, hch, ih]
  | objEmpty h => simp [List.foldl_append, hch, scan_ws h]
  | obj _ ih => simp [List.foldl_append, hch, ih]
  | element ha _ hb ih => simp [List.foldl_append, scan_ws ha, ih, scan_ws hb]
  | elements ha _ hb _ ih ih' => simp [List.foldl_append, scan_ws ha, ih, scan_ws hb, hch, ih']
  | member ha hk hb hc _ hd ih =>
    have := hstr hk
    simp only [List.cons_append, List.foldl_cons, List.foldl_append, List.foldl_nil] at this
    simp only [List.append_assoc, List.cons_append, List.foldl_append, List.foldl_cons, scan_ws ha, this, scan_ws hb,
      hch ':' (by decide), scan_ws hc, ih, scan_ws hd]
  | members ha hk hb hc _ hd _ ih ih' =>
    have := hstr hk
    simp only [List.cons_append, List.foldl_cons, List.foldl_append, List.foldl_nil] at this
    simp only [List.append_assoc, List.cons_append, List.foldl_append, List.foldl_cons, scan_ws ha, this, scan_ws hb,
      hch ':' (by decide), hch ',' (by decide), scan_ws hc, ih, scan_ws hd, ih']

/-- A printer for the examples. -/
def samplePrinter : Printer where
  int n := if n < 0 then ['-', '1'] else List.replicate (n.toNat + 1) '1'
  dbl x := if x < 0 then ['-', '0', '.', '5'] else ['1', 'e', '+', '0', '6']

theorem samplePrinter_contract : PrinterContract samplePrinter where
  int n := by
    unfold samplePrinter
    simp only
    split
    · exact ⟨['-'], ['1'], [], [], rfl, by simp, Or.inr ⟨'1', [], rfl, by decide, by decide, by simp⟩, by simp, by simp⟩
    · refine ⟨[], List.replicate (n.toNat + 1) '1', [], [], by simp, by simp, Or.inr ⟨'1', List.replicate n.toNat '1', by simp [List.replicate_succ], by decide, by decide, ?_⟩,
        by simp, by simp⟩
      intro c hc
      rw [List.eq_of_mem_replicate hc]; decide
  dbl x := by
    unfold samplePrinter
    simp only
    split
    · exact ⟨['-'], ['0'], ['.', '5'], [], rfl, by simp, by simp, Or.inr ⟨['5'], rfl, by simp, by simp [IsDigit]⟩, by simp⟩
    · exact ⟨[], ['1'], [], ['e', '+', '0', '6'], rfl, by simp, Or.inr ⟨'1', [], rfl, by decide, by simp [IsDigit], by simp⟩, by simp,
        Or.inr ⟨'e', ['+'], ['0', '6'], rfl, by simp, by simp, by simp, by simp [IsDigit]⟩⟩

/-- The sample document of C34 meets the hypotheses of `c36_json_lines_partial` for all units but characters (its fonts are
unknown), with font information also for characters. -/
example : CleanDoc sampleDoc ∧ UnknownFont [.title] sampleDoc ∧
    ¬ UnknownFont [.title] { sampleDoc with fontInfos := fun _ => some {} } := by
  refine ⟨⟨by decide +kernel, by decide +kernel, by decide +kernel, by decide +kernel, by decide +kernel⟩, ?_, ?_⟩
  · exact ⟨_, List.mem_filter.2 ⟨List.mem_flatMap.2 ⟨_, List.mem_cons_self, List.mem_cons_self⟩, by decide⟩, _, List.mem_cons_self, _, List.mem_cons_self, _,
      List.mem_cons_self, rfl, rfl⟩
  · rintro ⟨b, -, l, -, w, -, c, -, -, h⟩
    exact absurd h (by simp)

/-- **C36, refuted part.** Font names are written without escaping: the record of a word in a font whose name contains a quote
is no JSON text at all. -/
theorem c36_font_name_breaks_json :
    ∃ (P : Printer) (b : SBlock) (w : SWord), Plain b.id ∧ Plain w.id ∧ ∀ v, ¬ Parses .value (wordRecord P b w) v := by
  refine ⟨⟨fun _ => ['0'], fun _ => ['0']⟩, { role := .title, lines := [] }, { text := ['a'], chars := [], fontName := ['A', '"'] },
    by decide, by decide, fun v h => ?_⟩
  have := scan_parses h
  revert this
  decide +kernel

end Verif.Props
