import Verif.Model.Serializers
import Verif.Spec.Output

/-!
# C34, C35: the text serializers
-/

namespace Verif.Props

open Verif.Serialize Verif.Spec Verif.Text

/-! ## The words of a block -/

/-- The printed text of a block: its words, without the second parts of hyphenated words, separated by single
spaces. A word is printed as the merged word if it is the first part of a hyphenated word, else as its characters, a
character with a diacritical mark as the combination and the mark itself not at all. -/
def printedBlock (b : SBlock) : Str :=
  [' '].intercalate (((b.lines.flatMap (·.words)).filter fun w => !w.second).map fun w =>
    w.first.getD ((w.chars.filter fun c => c.isBase || !c.isMark).flatMap fun c =>
      if c.isBase then c.withMark else c.text))

theorem charOut_flat (cs : List SChar) : cs.flatMap charOut =
    (cs.filter fun c => c.isBase || !c.isMark).flatMap fun c => if c.isBase then c.withMark else c.text := by
  induction cs with
  | nil => rfl
  | cons c cs ih =>
    rw [List.flatMap_cons, ih, charOut]
    rcases hb : c.isBase <;> rcases hm : c.isMark <;> simp [hb, hm]

theorem wordOut_eq (w : SWord) : wordOut w =
    w.first.getD ((w.chars.filter fun c => c.isBase || !c.isMark).flatMap fun c =>
      if c.isBase then c.withMark else c.text) := by
  unfold wordOut
  rw [← charOut_flat]
  cases w.first <;> rfl

theorem writeWords_eq (ws : List SWord) : ∀ prev,
    writeWords prev ws = (if prev && (ws.any fun w => !w.second) then [' '] else []) ++
      [' '].intercalate ((ws.filter fun w => !w.second).map wordOut) := by
  induction ws with
  | nil => intro prev; simp [writeWords, List.intercalate]
  | cons w ws ih =>
    intro prev
    rw [writeWords]
    by_cases hs : w.second = true
    · simp [hs, ih]
    · have hs' : w.second = false := by simpa using hs
      simp only [hs', Bool.false_eq_true, if_false, ih true, List.any_cons, Bool.not_false,
        Bool.true_or, Bool.and_true, Bool.true_and, List.filter_cons, if_true, List.map_cons]
      rcases hf : ws.filter (fun w => !w.second) with _ | ⟨v, vs⟩
      · have : (ws.any fun w => !w.second) = false := by
          rw [List.filter_eq_nil_iff] at hf
          rw [List.any_eq_false]
          exact hf
        simp [this, hf, List.intercalate]
      · have : (ws.any fun w => !w.second) = true := by
          rw [List.any_eq_true]
          have hv : v ∈ ws.filter (fun w => !w.second) := by rw [hf]; simp
          exact ⟨v, (List.mem_filter.1 hv).1, (List.mem_filter.1 hv).2⟩
        simp [this, hf, List.intercalate]

theorem writeWords_block (b : SBlock) : writeWords false b.words = printedBlock b := by
  rw [writeWords_eq, printedBlock, SBlock.words]
  simp only [Bool.false_and, Bool.false_eq_true, if_false, List.nil_append]
  congr 2
  funext w
  exact wordOut_eq w

/-! ## The pieces of an output -/

/-- The pieces of the blocks of one page. -/
def blockPieces {β : Type} : Bool → List β → List (Piece β)
  | _, [] => []
  | prev, b :: bs => (if prev then [Piece.blank] else []) ++ Piece.block b :: blockPieces true bs

/-- The pieces of all pages. -/
def pagePieces {β : Type} : Bool → List (List β) → List (Piece β)
  | _, [] => []
  | prev, p :: ps => blockPieces prev p ++ Piece.pageEnd :: pagePieces (prev || !p.isEmpty) ps

/-- The blocks printed on the pages. -/
def printedPages (roles : List Role) (doc : SDoc) : List (List SBlock) :=
  doc.pages.map fun p => p.blocks.filter fun b => decide (b.role ∈ roles)

theorem selected_eq (roles : List Role) (b : SBlock) : selected roles b = decide (b.role ∈ roles) := by
  rw [selected, List.contains_eq_mem]

theorem writeBlocks_eq (roles : List Role) (head : SBlock → Str) (pe : Str) (bs : List SBlock) : ∀ prev,
    writeBlocks roles head prev bs =
      ((blockPieces prev (bs.filter fun b => decide (b.role ∈ roles))).flatMap
        (Piece.print (fun b => head b ++ printedBlock b) pe),
       prev || !(bs.filter fun b => decide (b.role ∈ roles)).isEmpty) := by
  induction bs with
  | nil => intro prev; simp [writeBlocks, blockPieces]
  | cons b bs ih =>
    intro prev
    rw [writeBlocks, selected_eq]
    by_cases h : b.role ∈ roles
    · simp only [h, decide_true, Bool.not_true, Bool.false_eq_true, if_false, ih true, writeWords_block]
      rw [List.filter_cons_of_pos (by simpa using h), blockPieces]
      cases prev <;> simp [Piece.print]
    · simp [h, ih]

theorem writePages_eq (roles : List Role) (head : SBlock → Str) (foot : Str) (ps : List SPage) : ∀ prev,
    writePages roles head foot prev ps =
      (pagePieces prev (ps.map fun p => p.blocks.filter fun b => decide (b.role ∈ roles))).flatMap
        (Piece.print (fun b => head b ++ printedBlock b) foot) := by
  induction ps with
  | nil => intro prev; simp [writePages, pagePieces]
  | cons p ps ih =>
    intro prev
    rw [writePages, writeBlocks_eq roles head foot, List.map_cons, pagePieces]
    simp [ih, Piece.print]

section Pieces

variable {β : Type}

theorem blockPieces_items (bs : List β) : ∀ prev,
    (blockPieces prev bs).filter Piece.isItem = bs.map Piece.block := by
  induction bs with
  | nil => intro prev; rfl
  | cons b bs ih => intro prev; cases prev <;> simp [blockPieces, List.filter_cons, ih, Piece.isItem]

theorem pagePieces_items (ps : List (List β)) : ∀ prev,
    (pagePieces prev ps).filter Piece.isItem =
      ps.flatMap fun bs => bs.map Piece.block ++ [Piece.pageEnd] := by
  induction ps with
  | nil => intro prev; rfl
  | cons p ps ih =>
    intro prev
    rw [pagePieces, List.filter_append, blockPieces_items, List.filter_cons_of_pos (by rfl), ih]
    simp

theorem blockPieces_body (bs : List β) : ∀ prev,
    (blockPieces prev bs).filter Piece.isBody = blockPieces prev bs := by
  induction bs with
  | nil => intro prev; rfl
  | cons b bs ih => intro prev; cases prev <;> simp [blockPieces, List.filter_cons, ih, Piece.isBody]

theorem blockPieces_append (as bs : List β) : ∀ prev,
    blockPieces prev (as ++ bs) = blockPieces prev as ++ blockPieces (prev || !as.isEmpty) bs := by
  induction as with
  | nil => intro prev; simp [blockPieces]
  | cons a as ih => intro prev; simp [blockPieces, ih]

theorem pagePieces_body (ps : List (List β)) : ∀ prev,
    (pagePieces prev ps).filter Piece.isBody = blockPieces prev ps.flatten := by
  induction ps with
  | nil => intro prev; rfl
  | cons p ps ih =>
    intro prev
    rw [pagePieces, List.filter_append, blockPieces_body, List.filter_cons_of_neg (by simp [Piece.isBody]), ih]
    simp [blockPieces_append]

theorem blockPieces_intersperse (bs : List β) :
    blockPieces true bs = bs.flatMap (fun b => [Piece.blank, Piece.block b]) ∧
    blockPieces false bs = (bs.map Piece.block).intersperse Piece.blank := by
  have h1 : ∀ bs : List β, blockPieces true bs = bs.flatMap (fun b => [Piece.blank, Piece.block b]) := by
    intro bs
    induction bs with
    | nil => rfl
    | cons b bs ih => simp [blockPieces, ih]
  refine ⟨h1 bs, ?_⟩
  induction bs with
  | nil => rfl
  | cons b bs ih =>
    cases bs with
    | nil => rfl
    | cons b' bs =>
      have : blockPieces false (b' :: bs) = Piece.block b' :: blockPieces true bs := by simp [blockPieces]
      rw [this] at ih
      simp only [blockPieces, Bool.false_eq_true, if_false, List.nil_append, if_true, List.cons_append,
        List.map_cons, List.intersperse]
      rw [ih]
      rfl

/-- Every blank line is followed by a body piece, and the first piece is a body piece if `prev` … -/
theorem before_append {as bs : List (Piece β)}
    (ha : ∀ p ∈ as.zip as.tail, p.1 = Piece.blank → p.2.isBody = true)
    (hb : ∀ p ∈ bs.zip bs.tail, p.1 = Piece.blank → p.2.isBody = true)
    (hl : as.getLast? ≠ some Piece.blank) :
    ∀ p ∈ (as ++ bs).zip (as ++ bs).tail, p.1 = Piece.blank → p.2.isBody = true := by
  induction as with
  | nil => simpa using hb
  | cons a as ih =>
    cases as with
    | nil =>
      cases bs with
      | nil => simp
      | cons b bs =>
        intro p hp h
        simp only [List.singleton_append, List.tail_cons, List.zip_cons_cons, List.mem_cons] at hp
        rcases hp with rfl | hp
        · exact absurd h (by simpa using hl)
        · exact hb p (by simpa using hp) h
    | cons a' as =>
      intro p hp h
      simp only [List.cons_append, List.tail_cons, List.zip_cons_cons, List.mem_cons] at hp ih ha
      rcases hp with rfl | hp
      · exact ha (a, a') (Or.inl rfl) h
      · refine ih (fun q hq => ha q (Or.inr hq)) ?_ p ?_ h
        · simpa [List.getLast?_cons_cons] using hl
        · simpa using hp

theorem blockPieces_before (bs : List β) : ∀ prev,
    (∀ p ∈ (blockPieces prev bs).zip (blockPieces prev bs).tail, p.1 = Piece.blank → p.2.isBody = true) ∧
    (blockPieces prev bs).getLast? ≠ some Piece.blank := by
  induction bs with
  | nil => intro prev; simp [blockPieces]
  | cons b bs ih =>
    intro prev
    have h1 : (∀ p ∈ (Piece.block b :: blockPieces true bs).zip (Piece.block b :: blockPieces true bs).tail,
        p.1 = Piece.blank → p.2.isBody = true) :=
      before_append (as := [Piece.block b]) (by simp) (ih true).1 (by simp)
    have h2 : (Piece.block b :: blockPieces true bs).getLast? ≠ some Piece.blank := by
      rcases hr : blockPieces true bs with _ | ⟨x, xs⟩
      · simp
      · rw [List.getLast?_cons_cons, ← hr]; exact (ih true).2
    cases prev with
    | false => simpa only [blockPieces, Bool.false_eq_true, if_false, List.nil_append] using ⟨h1, h2⟩
    | true =>
      simp only [blockPieces, if_true, List.singleton_append]
      refine ⟨?_, by rw [List.getLast?_cons_cons]; exact h2⟩
      intro p hp h
      simp only [List.tail_cons, List.zip_cons_cons, List.mem_cons] at hp
      rcases hp with rfl | hp
      · rfl
      · exact h1 p (by simpa using hp) h

theorem pagePieces_before (ps : List (List β)) : ∀ prev,
    ∀ p ∈ (pagePieces prev ps).zip (pagePieces prev ps).tail, p.1 = Piece.blank → p.2.isBody = true := by
  induction ps with
  | nil => intro prev; simp [pagePieces]
  | cons q ps ih =>
    intro prev
    rw [pagePieces]
    refine before_append (blockPieces_before q prev).1 ?_ (blockPieces_before q prev).2
    exact before_append (as := [Piece.pageEnd]) (by simp) (ih _) (by simp)

theorem pagePieces_layout (ps : List (List β)) : IsLayout ps (pagePieces false ps) :=
  ⟨pagePieces_items ps false, by rw [pagePieces_body, (blockPieces_intersperse _).2], pagePieces_before ps false⟩

theorem flatMap_filter_isBody {f : β → Str} (ps : List (Piece β)) :
    ps.flatMap (Piece.print f []) = (ps.filter Piece.isBody).flatMap (Piece.print f []) := by
  induction ps with
  | nil => rfl
  | cons p ps ih => cases p <;> simp [List.filter_cons, Piece.isBody, Piece.print, ih]

theorem flatMap_intersperse (f : β → Str) (bs : List β) :
    ((bs.map Piece.block).intersperse Piece.blank).flatMap (Piece.print f []) =
      ['\n', '\n'].intercalate (bs.map f) := by
  induction bs with
  | nil => rfl
  | cons b bs ih =>
    cases bs with
    | nil => simp [List.intercalate, Piece.print]
    | cons b' bs =>
      simp only [List.map_cons, List.intersperse, List.flatMap_cons, List.intercalate, List.flatten_cons] at ih ⊢
      rw [ih]
      simp [Piece.print]

end Pieces

/-! ## C34 -/

/-- **C34.** The plain text output is the printed text of the blocks with a selected role, in document order,
separated by one blank line and terminated by one newline. -/
theorem c34_plain_text_partial (roles : List Role) (doc : SDoc) :
    plainText roles doc =
      ['\n', '\n'].intercalate (((doc.pages.flatMap (·.blocks)).filter fun b => decide (b.role ∈ roles)).map printedBlock)
        ++ ['\n'] := by
  rw [plainText, writePages_eq, flatMap_filter_isBody, pagePieces_body, (blockPieces_intersperse _).2,
    flatMap_intersperse]
  simp only [List.nil_append]
  congr 3
  induction doc.pages with
  | nil => rfl
  | cons p ps ih => simp [ih]

/-- All roles, the default of the command line tool (`/repo/src/pdftotext++.cpp:172`). -/
def allRoles : List Role :=
  [.paragraph, .reference, .marginal, .footnote, .heading, .formula, .title, .authorInfo, .abstract, .date,
   .caption, .table, .other, .toc]

theorem mem_allRoles (r : Role) : r ∈ allRoles := by cases r <;> decide

/-- **C34.** With the default of the command line tool (all roles) every block is printed. -/
theorem c34_default_prints_all (doc : SDoc) :
    plainText allRoles doc =
      ['\n', '\n'].intercalate ((doc.pages.flatMap (·.blocks)).map printedBlock) ++ ['\n'] := by
  rw [c34_plain_text_partial, List.filter_eq_self.2]
  intro b _
  simpa using mem_allRoles b.role

/-- **C34, refuted part.** An empty set of roles, which `Serializer.h` documents as "all text blocks", prints
no block at all, in none of the formats. -/
theorem c34_no_roles_prints_nothing (doc : SDoc) (P : Printer) :
    plainText [] doc = ['\n'] ∧ serializeWords P [] doc = [] ∧ serializeTextBlocks P [] doc = [] ∧
    serializeCharacters P [] doc = .ok [] := by
  refine ⟨by rw [c34_plain_text_partial]; simp [List.intercalate], ?_⟩
  have : selectedBlocks [] doc = [] := by
    unfold selectedBlocks
    induction doc.pages with
    | nil => rfl
    | cons p ps ih => simp [selected]
  simp [serializeWords, serializeTextBlocks, serializeCharacters, serializeBlockChars, this]

/-- A document: one page with a title of one hyphenated word and a paragraph with a composed character, one empty page. -/
def sampleDoc : SDoc :=
  let w (t : String) : SWord := { text := t.toList, chars := t.toList.map fun c => { text := [c] } }
  { pages :=
    [{ blocks :=
        [{ role := .title, isEmphasized := true, id := "b1".toList, text := "foo- bar".toList
           lines := [⟨[{ w "foo-" with first := some "foobar".toList }]⟩, ⟨[{ w "bar" with second := true }, w "x"]⟩] },
         { role := .paragraph, id := "b2".toList, text := "a\"b".toList,
           lines := [⟨[{ text := "e".toList, chars := [{ text := "e".toList, isBase := true, withMark := "E".toList },
             { text := "'".toList, isMark := true }] }, w "c"]⟩] }] },
     { blocks := [] }] }

example : plainText [.title, .paragraph] sampleDoc = "foobar x\n\nE c\n".toList := by decide +kernel
example : plainText [.paragraph] sampleDoc = "E c\n".toList := by decide +kernel

/-! ## C35 -/

/-- **C35.** The extended output and the plain text output consist of the same pieces — the printed blocks of all
pages in order, page ends and blank lines between successive blocks; the plain text output prints the blocks
and the blank lines, the extended output additionally prints every page end as a newline with one form feed and every block with
its role tag and, if it is emphasised, the start-of-heading character in front. -/
theorem c35_extended (roles : List Role) (doc : SDoc) :
    ∃ ps : List (Piece SBlock), IsLayout (printedPages roles doc) ps ∧
      plainTextExtended roles doc = ps.flatMap (Piece.print (fun b =>
          (roleTags.getD b.role.ctorIdx "").toList ++ (if b.isEmphasized then [Char.ofNat 1] else []) ++ printedBlock b)
          ['\n', Char.ofNat 12]) ++ ['\n'] ∧
      plainText roles doc = ps.flatMap (Piece.print printedBlock []) ++ ['\n'] := by
  refine ⟨_, pagePieces_layout _, ?_, ?_⟩
  · rw [plainTextExtended, writePages_eq, printedPages]
    congr 3
    funext b
    have : ['['] ++ (roleName b.role).map toUpperC ++ [']', ' '] =
        (roleTags.getD b.role.ctorIdx "").toList := by
      cases b.role <;> decide +kernel
    rw [blockPrefix, this]
  · rw [plainText, writePages_eq, printedPages]
    simp

theorem count_flatMap {α β : Type} [DecidableEq β] (x : β) (f : α → List β) (l : List α) :
    (l.flatMap f).count x = (l.map fun a => (f a).count x).sum := by
  induction l with
  | nil => rfl
  | cons a l ih => simp [ih]

/-- **C35.** If no printed word contains a form feed, the extended output contains exactly one form feed per page. -/
theorem c35_form_feeds (roles : List Role) (doc : SDoc)
    (hclean : ∀ p ∈ doc.pages, ∀ b ∈ p.blocks, Char.ofNat 12 ∉ printedBlock b) :
    (plainTextExtended roles doc).count (Char.ofNat 12) = doc.pages.length := by
  obtain ⟨ps, hps, hext, -⟩ := c35_extended roles doc
  rw [hext, List.count_append, count_flatMap]
  have hmem : ∀ b, Piece.block b ∈ ps → Char.ofNat 12 ∉ printedBlock b := by
    intro b hb
    have : Piece.block b ∈ ps.filter Piece.isItem := List.mem_filter.2 ⟨hb, rfl⟩
    rw [hps.items, printedPages] at this
    simp only [List.mem_flatMap, List.mem_append, List.mem_map, List.mem_singleton, Piece.block.injEq,
      reduceCtorEq, or_false] at this
    obtain ⟨bs, ⟨p, hp, rfl⟩, b', hb', rfl⟩ := this
    exact hclean p hp b' (List.mem_of_mem_filter hb')
  have hend : ∀ (qs : List (List SBlock)), ((qs.flatMap fun bs => bs.map Piece.block ++ [Piece.pageEnd]).map fun a : Piece SBlock =>
      match a with | .pageEnd => 1 | _ => 0).sum = qs.length := by
    intro qs
    induction qs with
    | nil => rfl
    | cons q qs ih =>
      have : ∀ bs : List SBlock, ((bs.map (Piece.block)).map fun a : Piece SBlock =>
          match a with | .pageEnd => 1 | _ => 0).sum = 0 := by
        intro bs; induction bs with
        | nil => rfl
        | cons b bs ih => simpa using ih
      rw [List.flatMap_cons, List.map_append, List.sum_append, ih, List.map_append, List.sum_append, this]
      simp [Nat.add_comm]
  have hstep : ∀ qs : List (Piece SBlock), (∀ b, Piece.block b ∈ qs → Char.ofNat 12 ∉ printedBlock b) →
      (qs.map fun a => (Piece.print (fun b => (roleTags.getD b.role.ctorIdx "").toList ++
        (if b.isEmphasized then [Char.ofNat 1] else []) ++ printedBlock b) ['\n', Char.ofNat 12] a).count (Char.ofNat 12)).sum =
      ((qs.filter Piece.isItem).map fun a : Piece SBlock => match a with | .pageEnd => 1 | _ => 0).sum := by
    intro qs
    induction qs with
    | nil => intro; rfl
    | cons q qs ih =>
      intro h
      have ih' := ih fun b hb => h b (List.mem_cons_of_mem _ hb)
      rw [List.map_cons, List.sum_cons, ih']
      cases q with
      | blank =>
        rw [List.filter_cons_of_neg (by simp [Piece.isItem])]
        have : (Piece.print (β := SBlock) (fun b => (roleTags.getD b.role.ctorIdx "").toList ++
          (if b.isEmphasized then [Char.ofNat 1] else []) ++ printedBlock b) ['\n', Char.ofNat 12] .blank).count (Char.ofNat 12) = 0 := by
          simp only [Piece.print]; decide
        rw [this]; simp
      | pageEnd =>
        rw [List.filter_cons_of_pos (by rfl)]
        have : (Piece.print (β := SBlock) (fun b => (roleTags.getD b.role.ctorIdx "").toList ++
          (if b.isEmphasized then [Char.ofNat 1] else []) ++ printedBlock b) ['\n', Char.ofNat 12] .pageEnd).count (Char.ofNat 12) = 1 := by
          simp only [Piece.print]; decide
        rw [this]; simp
      | block b =>
        rw [List.filter_cons_of_pos (by rfl)]
        have h0 := List.count_eq_zero.2 (h b (by simp))
        have h1 : ((roleTags.getD b.role.ctorIdx "").toList).count (Char.ofNat 12) = 0 := by
          cases b.role <;> decide +kernel
        have h2 : (if b.isEmphasized then [Char.ofNat 1] else []).count (Char.ofNat 12) = 0 := by
          cases b.isEmphasized <;> decide
        simp only [Piece.print, List.count_append, h0, h1, h2, List.map_cons, List.sum_cons]
  rw [hstep ps hmem, hps.items, hend, printedPages]
  have : (['\n'] : Str).count (Char.ofNat 12) = 0 := by decide
  rw [this]; simp

example : plainTextExtended [.title, .paragraph] sampleDoc =
    "[TITLE] \x01foobar x\n\n[PARAGRAPH] E c\n\x0C\n\x0C\n".toList := by decide +kernel

example : ∀ p ∈ sampleDoc.pages, ∀ b ∈ p.blocks, Char.ofNat 12 ∉ printedBlock b := by decide +kernel

end Verif.Props
