import Verif.Props.PipelineLines
import Verif.Props.ReadingOrder
import Verif.Props.Scripts

/-!
# C65: the stages of the pipeline, one by one
-/

namespace Verif.Props

open Verif.Math Verif.Elements Verif.Spec Verif.Words Verif.TextLines Verif.Pipeline Verif.Counter
open Verif.PageSegmentation (PElem DocStats PageElems)
open Verif.ReadingOrder (RElem Role)

/-! ## Statistics -/

theorem pl_glyphStats (h : HashOrder) (s : Statistics.Stats) (pages : List (List Glyph)) :
    ∃ s', Statistics.glyphStatistics h s pages = .ok s' := by
  unfold Statistics.glyphStatistics
  simp only
  split
  · exact ⟨_, rfl⟩
  · generalize pages.foldl (fun s page => page.foldl Statistics.glyphStep s) {} = k
    obtain ⟨a, h1, _⟩ := mostFreqOr_spec h 0 0 k.fontSizes
    obtain ⟨b, h2, _⟩ := mostFreqOr_spec h [] [] k.fontNames
    rw [h1, h2]
    exact ⟨_, rfl⟩

theorem pl_wordStats (h : HashOrder) (s : Statistics.Stats) (pages : List (List Word)) :
    ∃ s', Statistics.wordStatistics h s pages = .ok s' := by
  unfold Statistics.wordStatistics
  simp only
  generalize pages.foldl (fun k page => Statistics.wordLoop s.mostFreqFontSize none page k) {} = k
  obtain ⟨a, h1, _⟩ := mostFreqOr_spec h 0 s.mostFreqWordHeight k.heights
  obtain ⟨b, h2, _⟩ := mostFreqOr_spec h 0 s.mostFreqWordDistance k.hGaps
  obtain ⟨c, h3, _⟩ := mostFreqOr_spec h 0 s.mostFreqEstimatedLineDistance k.vGaps
  rw [h1, h2, h3]
  exact ⟨_, rfl⟩

theorem pl_perSize (h : HashOrder) (es : List (ℚ × List ℚ)) : ∀ m, ∃ m', Statistics.perSizeLoop h es m = .ok m' := by
  induction es with
  | nil => intro m; exact ⟨m, rfl⟩
  | cons e es ih =>
    intro m
    rw [Statistics.perSizeLoop]
    split
    · next hpos =>
      obtain ⟨p, hp, _⟩ := mostFreqAndCount_spec h e.2
      rw [if_pos hpos] at hp
      unfold mostFreq
      rw [hp]
      exact ih _
    · exact ih m

theorem pl_lineStats (lib : LineLib) (s : Statistics.Stats) (segs : List (List Statistics.BasedLine)) :
    ∃ s', Statistics.lineStatistics lib s segs = .ok s' := by
  unfold Statistics.lineStatistics
  simp only
  generalize segs.foldl (fun k seg => Statistics.lineLoop seg k) {} = k
  obtain ⟨a, h1, _⟩ := mostFreqOr_spec lib.hash 0 s.mostFreqLineDistance k.dists
  obtain ⟨b, h2⟩ := pl_perSize lib.hash (lib.iter _ k.perSize) s.mostFreqLineDistancePerFontSize
  rw [h1]
  simp only [Outcome.bind]
  rw [h2]
  exact ⟨_, rfl⟩

/-! ## Pages -/

theorem pl_mapPages {f : Page → Outcome Page} {R : Page → Page → Prop} (ps : List Page)
    (h : ∀ p ∈ ps, ∃ p', f p = .ok p' ∧ R p p') : ∃ ps', mapPages f ps = .ok ps' ∧ List.Forall₂ R ps ps' := by
  induction ps with
  | nil => exact ⟨[], rfl, .nil⟩
  | cons p ps ih =>
    obtain ⟨p', h1, h2⟩ := h p (by simp)
    obtain ⟨ps', h3, h4⟩ := ih fun q hq => h q (by simp [hq])
    refine ⟨p' :: ps', ?_, .cons h2 h4⟩
    rw [mapPages, h1]
    simp only [Outcome.bind]
    rw [h3]

theorem pl_forall₂_trans {α β γ : Type} {R : α → β → Prop} {S : β → γ → Prop} {T : α → γ → Prop} {l : List α} {m : List β}
    {k : List γ} (h : ∀ a b c, R a b → S b c → T a c) (h1 : List.Forall₂ R l m) (h2 : List.Forall₂ S m k) :
    List.Forall₂ T l k := by
  induction h1 generalizing k with
  | nil => cases h2; exact .nil
  | cons hab _ ih => cases h2 with | cons hbc h2 => exact .cons (h _ _ _ hab hbc) (ih h2)

theorem pl_forall₂_right {α β : Type} {R : α → β → Prop} {l : List α} {m : List β} (h : List.Forall₂ R l m) :
    ∀ b ∈ m, ∃ a ∈ l, R a b := by
  induction h with
  | nil => simp
  | cons hab _ ih =>
    intro b hb
    rcases List.mem_cons.mp hb with rfl | hb
    · exact ⟨_, by simp, hab⟩
    · obtain ⟨a, ha, h'⟩ := ih b hb; exact ⟨a, by simp [ha], h'⟩

theorem pl_forall₂_map {α β γ : Type} {R : α → γ → Prop} (f : β → γ) {l : List α} {m : List β}
    (h : List.Forall₂ (fun a b => R a (f b)) l m) : List.Forall₂ R l (m.map f) := by
  induction h with
  | nil => exact .nil
  | cons hab _ ih => exact .cons hab ih

theorem pl_forall₂_refl {α : Type} {R : α → α → Prop} {l : List α} (h : ∀ a ∈ l, R a a) : List.Forall₂ R l l := by
  induction l with
  | nil => exact .nil
  | cons a l ih => exact .cons (h a (by simp)) (ih fun b hb => h b (by simp [hb]))

/-! ## The words of a page after mergeStackedMathSymbols -/

theorem pl_merge_length (ws : List Word) : (mergeStackedMathSymbols ws).length = ws.length := by
  have : ∀ (l : List ℕ) (v : List Word), (l.foldl mergeStep v).length = v.length := by
    intro l
    induction l with
    | nil => intro v; rfl
    | cons a l ih =>
      intro v
      rw [List.foldl_cons, ih]
      unfold mergeStep
      split
      · rfl
      · split <;> simp
  exact this _ _

theorem pl_merge_get (ws : List Word) (hf : Fresh ws) (i : ℕ) : ∃ ps po, (mergeStackedMathSymbols ws)[i]? =
    (ws[i]?).map fun w => { w with parts := ps, partOf := po } := by
  cases hi : ws[i]? with
  | none =>
    refine ⟨[], none, ?_⟩
    rw [Option.map_none, List.getElem?_eq_none_iff, pl_merge_length]
    exact List.getElem?_eq_none_iff.mp hi
  | some w => exact ⟨_, _, merged_getElem? ws hf i w hi⟩

theorem pl_merge_mem (ws : List Word) (hf : Fresh ws) {w : Word} (hw : w ∈ mergeStackedMathSymbols ws) :
    ∃ v ∈ ws, ∃ ps po, w = { v with parts := ps, partOf := po } := by
  obtain ⟨i, hi⟩ := List.getElem?_of_mem hw
  obtain ⟨ps, po, h⟩ := pl_merge_get ws hf i
  rw [hi] at h
  cases hv : ws[i]? with
  | none => rw [hv] at h; cases h
  | some v =>
    rw [hv] at h
    exact ⟨v, List.mem_of_getElem? hv, ps, po, by simpa using h⟩

/-! ## Sub- and superscripts change nothing that is printed -/

theorem pl_scriptChars (mf b : ℚ) (cs : List Glyph) : ∀ box,
    (Scripts.scriptChars mf b box cs).1.map toSChar = cs.map toSChar := by
  induction cs with
  | nil => intro box; rfl
  | cons c cs ih =>
    intro box
    simp only [Scripts.scriptChars, List.map_cons, ih]
    congr 1
    unfold Scripts.scriptStep
    split
    · rfl
    · split <;> rfl

theorem pl_scriptWords (h : Dehyphenation.Flags) (k : ℕ) (mf b : ℚ) (ws : List Word) : ∀ box,
    (Scripts.scriptWords mf b box ws).1.map (toSWord h k) = ws.map (toSWord h k) := by
  induction ws with
  | nil => intro box; rfl
  | cons w ws ih =>
    intro box
    simp only [Scripts.scriptWords, List.map_cons, ih]
    congr 1
    simp only [toSWord, wordUid, pl_scriptChars]

theorem pl_scriptWords_ne (mf b : ℚ) (ws : List Word) (box : Box) (hne : ws ≠ []) :
    (Scripts.scriptWords mf b box ws).1 ≠ [] := by
  cases ws with
  | nil => exact absurd rfl hne
  | cons w ws => simp [Scripts.scriptWords]

theorem pl_scriptWords_pos (mf b : ℚ) (ws : List Word) : ∀ box,
    (Scripts.scriptWords mf b box ws).1.map (·.pos) = ws.map (·.pos) := by
  induction ws with
  | nil => intro box; rfl
  | cons w ws ih => intro box; simp only [Scripts.scriptWords, List.map_cons, ih]

theorem lc_scriptWords {α : Type} (f : Glyph → α) (hf : ∀ mf b c c', Flagged mf b c c' → f c' = f c) {mf b : ℚ} {ws ws' : List Word}
    (h : List.Forall₂ (WordFlagged mf b) ws ws') :
    ws'.map (·.text) = ws.map (·.text) ∧ ws'.map (·.pos) = ws.map (·.pos) ∧
    (ws'.flatMap (·.chars)).map f = (ws.flatMap (·.chars)).map f := by
  induction h with
  | nil => exact ⟨rfl, rfl, rfl⟩
  | @cons w w' ws ws' hr _ ih =>
    obtain ⟨i1, i2, i3⟩ := ih
    have e1 : w'.text = w.text := (congrArg (fun g : Word => g.text) hr.1 :)
    have e2 : w'.pos = w.pos := (congrArg (fun g : Word => g.pos) hr.1 :)
    have e3 : w'.chars.map f = w.chars.map f := by
      have := hr.2
      generalize w'.chars = cs' at this ⊢
      generalize w.chars = cs at this ⊢
      clear i1 i2 i3 e1 e2 hr
      induction this with
      | nil => rfl
      | cons hc _ ih => rw [List.map_cons, List.map_cons, ih, hf _ _ _ _ hc]
    refine ⟨?_, ?_, ?_⟩
    · rw [List.map_cons, List.map_cons, i1, e1]
    · rw [List.map_cons, List.map_cons, i2, e2]
    · rw [List.flatMap_cons, List.flatMap_cons, List.map_append, List.map_append, i3, e3]

theorem pl_scriptLine_good {n : ℕ} (mf : ℚ) {l : Line} (h : GoodLine n l) : GoodLine n (Scripts.scriptLine mf l).1 := by
  have hfl : List.Forall₂ (WordFlagged mf l.base) l.words (Scripts.scriptLine mf l).1.words := (scriptWords_spec mf l.base l.words {}).1
  obtain ⟨_, _, hfn⟩ := lc_scriptWords (fun g => g.fontName) (fun _ _ _ _ g => (congrArg (fun g : Glyph => g.fontName) g.rest :)) hfl
  have hlen := congrArg List.length hfn
  rw [List.length_map, List.length_map] at hlen
  refine ⟨pl_scriptWords_ne _ _ _ _ h.nonempty, ?_, h.box, ?_, ?_⟩
  rotate_left
  · obtain ⟨w, hw, he⟩ := h.page
    have : w.pos ∈ ((Scripts.scriptLine mf l).1.words).map (·.pos) := by
      show w.pos ∈ (Scripts.scriptWords mf l.base {} l.words).1.map (·.pos)
      rw [pl_scriptWords_pos mf l.base l.words {}]
      exact List.mem_map.mpr ⟨w, hw, rfl⟩
    obtain ⟨v, hv, hv'⟩ := List.mem_map.mp this
    exact ⟨v, hv, by rw [hv']; exact he⟩
  · intro g1 g2
    rw [hfn]
    refine h.font ?_ (by rw [← hlen]; exact g2)
    intro hc
    rw [hc] at hlen
    exact g1 (List.length_eq_zero_iff.mp hlen)
  intro w hw
  have : w.pos ∈ l.words.map (·.pos) := by
    rw [← pl_scriptWords_pos mf l.base l.words {}]
    exact List.mem_map.mpr ⟨w, hw, rfl⟩
  obtain ⟨v, hv, he⟩ := List.mem_map.mp this
  rw [← he]; exact h.words v hv

/-- The words of the lines as they are printed. -/
def sWordsAt (h : Dehyphenation.Flags) (k : ℕ) (ls : List TextLine) (is : List ℕ) : List Serialize.SWord :=
  (is.flatMap (wordsAt ls)).map (toSWord h k)

theorem pl_scripts_words (h : Dehyphenation.Flags) (k : ℕ) (mf : ℚ) (ls : List TextLine) (is : List ℕ) :
    sWordsAt h k (ls.map fun l => { l with line := (Scripts.scriptLine mf l.line).1, base := (Scripts.scriptLine mf l.line).2 }) is =
      sWordsAt h k ls is := by
  unfold sWordsAt
  rw [List.map_flatMap, List.map_flatMap]
  congr 1
  funext i
  unfold wordsAt
  rw [List.getElem?_map]
  cases ls[i]? with
  | none => rfl
  | some l => exact pl_scriptWords h k mf l.line.base l.line.words {}

end Verif.Props
