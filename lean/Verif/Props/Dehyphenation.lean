import Verif.Model.Dehyphenation
import Verif.Spec.Dehyphenation
import Verif.Props.Serializers

/-!
# C37: de-hyphenation
-/

namespace Verif.Props

open Verif.Serialize Verif.Spec Verif.Text Verif.Dehyphenation

/-- The texts of the words of a line. -/
def sLineTexts (l : SLine) : List Str := l.words.map (·.text)

/-- What is printed for some words, given the flags. -/
def printedWith (f : Flags) (ws : List SWord) : List Str :=
  (ws.filter fun w => !f.second w.uid).map fun w => (f.first w.uid).getD w.text

theorem printedWith_append (f : Flags) (as bs : List SWord) :
    printedWith f (as ++ bs) = printedWith f as ++ printedWith f bs := by simp [printedWith]

/-- Flags that agree on the words print the same. -/
theorem printedWith_congr {f g : Flags} {ws : List SWord} (h1 : ∀ w ∈ ws, f.first w.uid = g.first w.uid)
    (h2 : ∀ w ∈ ws, f.second w.uid = g.second w.uid) : printedWith f ws = printedWith g ws := by
  unfold printedWith
  have : (ws.filter fun w => !f.second w.uid) = ws.filter fun w => !g.second w.uid :=
    List.filter_congr fun w hw => by rw [h2 w hw]
  rw [this]
  apply List.map_congr_left
  intro w hw
  rw [h1 w (List.mem_of_mem_filter hw)]

theorem printedWith_unset {f : Flags} {ws : List SWord} (h1 : ∀ w ∈ ws, f.first w.uid = none)
    (h2 : ∀ w ∈ ws, f.second w.uid = false) : printedWith f ws = ws.map (·.text) := by
  unfold printedWith
  rw [List.filter_eq_self.2 fun w hw => by simp [h2 w hw]]
  apply List.map_congr_left
  intro w hw
  simp [h1 w hw]

theorem mergedText_eq (p v : Str) : mergedText p v = if Hyphenated p then some (p.dropLast ++ v) else none := by
  unfold mergedText Hyphenated
  rw [List.dropLast_eq_take]

/-- The words of some lines. -/
def wordsOf (ls : List SLine) : List SWord := ls.flatMap (·.words)

theorem fold_unchanged (rest : List SLine) : ∀ (f : Flags) (prev : SLine) (u : ℕ),
    (u ∉ (wordsOf rest).map (·.uid) → ((rest.foldl step (f, some prev)).1.second u = f.second u) ∧
      ((∀ p, prev.words.getLast? = some p → p.uid ≠ u) → (rest.foldl step (f, some prev)).1.first u = f.first u)) := by
  induction rest with
  | nil => intro f prev u _; exact ⟨rfl, fun _ => rfl⟩
  | cons l ls ih =>
    intro f prev u hu
    have hu' : u ∉ (wordsOf ls).map (·.uid) := by
      intro h; apply hu; simp only [wordsOf, List.flatMap_cons, List.map_append, List.mem_append]; exact Or.inr h
    have hul : ∀ w ∈ l.words, w.uid ≠ u := by
      intro w hw e
      apply hu
      simp only [wordsOf, List.flatMap_cons, List.map_append, List.mem_append]
      exact Or.inl (List.mem_map.2 ⟨w, hw, e⟩)
    have hlast : ∀ p, l.words.getLast? = some p → p.uid ≠ u := fun p hp => hul p (List.mem_of_getLast? hp)
    rw [List.foldl_cons]
    rcases hl : l.words with _ | ⟨w, ws⟩
    · have : step (f, some prev) l = (f, some prev) := by simp [step, hl]
      rw [this]
      exact ih f prev u hu'
    · rcases hp : prev.words.getLast? with _ | p
      · have : step (f, some prev) l = (f, some l) := by simp [step, hl, hp]
        rw [this]
        have := ih f l u hu'
        exact ⟨this.1, fun _ => this.2 hlast⟩
      · rcases hm : mergedText p.text w.text with _ | t
        · have : step (f, some prev) l = (f, some l) := by simp [step, hl, hp, hm]
          rw [this]
          have := ih f l u hu'
          exact ⟨this.1, fun _ => this.2 hlast⟩
        · have : step (f, some prev) l = (⟨Function.update f.first p.uid (some t), Function.update f.second w.uid true⟩, some l) := by simp [step, hl, hp, hm]
          rw [this]
          have h := ih ⟨Function.update f.first p.uid (some t), Function.update f.second w.uid true⟩ l u hu'
          refine ⟨?_, fun hpu => ?_⟩
          · rw [h.1]
            exact Function.update_of_ne (hul w (by rw [hl]; simp)).symm _ _
          · rw [h.2 hlast]
            exact Function.update_of_ne (hpu p rfl).symm _ _

/-- A text that cannot be split again when it is the end of a joined word. -/
def NoHyphenEnd (v : Str) : Prop := ∃ c, v.getLast? = some c ∧ c ≠ '-'

/-- No line (with a line after it) that continues a hyphenated word consists of a single word that ends in a hyphen
or is empty. -/
def NoChain (ls : List (List Str)) : Prop :=
  ∀ a w v l' b, ls = a ++ [w, [v], l'] ++ b → (∃ x, w.getLast? = some x ∧ Hyphenated x) → NoHyphenEnd v

theorem noChain_tail {l : List Str} {ls : List (List Str)} (h : NoChain (l :: ls)) : NoChain ls := by
  intro a w v l' b e
  exact h (l :: a) w v l' b (by simp [e])

theorem not_hyphenated_append {y v : Str} (h : NoHyphenEnd v) : ¬ Hyphenated (y ++ v) := by
  obtain ⟨c, hc, hne⟩ := h
  rintro ⟨-, h2⟩
  rw [List.getLast?_append, hc] at h2
  simp at h2
  exact hne h2

theorem joinLines_join {init : List Str} {w v : Str} {vs : List Str} {ls : List (List Str)} (h : Hyphenated w) :
    joinLines ((init ++ [w]) :: (v :: vs) :: ls) = init ++ joinLines (((w.dropLast ++ v) :: vs) :: ls) := by
  rw [joinLines]
  simp [h]

theorem joinLines_skip {init : List Str} {w v : Str} {vs : List Str} {ls : List (List Str)} (h : ¬ Hyphenated w) :
    joinLines ((init ++ [w]) :: (v :: vs) :: ls) = init ++ [w] ++ joinLines ((v :: vs) :: ls) := by
  rw [joinLines]
  simp [h]

theorem main_fold (rest : List SLine) : ∀ (f : Flags) (prev : SLine) (h : SWord) (t : List SWord) (x : Str),
    prev.words = h :: t → (∀ l ∈ rest, l.words ≠ []) →
    ((h :: t ++ wordsOf rest).map (·.uid)).Nodup →
    (∀ w ∈ h :: t ++ wordsOf rest, f.first w.uid = none) →
    (∀ w ∈ t ++ wordsOf rest, f.second w.uid = false) →
    NoChain ((h.text :: t.map (·.text)) :: rest.map sLineTexts) →
    (f.second h.uid = false ∧ x = h.text ∨
      f.second h.uid = true ∧ (∃ y, x = y ++ h.text) ∧ (t ≠ [] ∨ rest = [] ∨ NoHyphenEnd h.text)) →
    (if f.second h.uid then [x] else []) ++ printedWith (rest.foldl step (f, some prev)).1 (h :: t ++ wordsOf rest) =
      joinLines ((x :: t.map (·.text)) :: rest.map sLineTexts) := by
  induction rest with
  | nil =>
    intro f prev h t x hp _ _ hf hs _ hx
    simp only [wordsOf, List.flatMap_nil, List.append_nil, List.map_nil, List.foldl_nil, joinLines] at *
    have ht := printedWith_unset (f := f) (ws := t) (fun w hw => hf w (by simp [hw])) (fun w hw => hs w hw)
    have : h :: t = [h] ++ t := rfl
    rw [this, printedWith_append, ht]
    rcases hx with ⟨h1, h2⟩ | ⟨h1, -⟩
    · subst h2; simp [printedWith, h1, hf h (by simp)]
    · simp [printedWith, h1]
  | cons l ls ih =>
    intro f prev h t x hp hne hnd hf hs hch hx
    obtain ⟨h', t', hl⟩ : ∃ h' t', l.words = h' :: t' := by
      rcases e : l.words with _ | ⟨a, b⟩
      · exact absurd e (hne l (by simp))
      · exact ⟨a, b, rfl⟩
    have hW : wordsOf (l :: ls) = h' :: t' ++ wordsOf ls := by simp [wordsOf, hl]
    rw [hW] at hnd hf hs ⊢
    have hL : sLineTexts l = h'.text :: t'.map (·.text) := by simp [sLineTexts, hl]
    rw [List.map_cons, hL] at hch ⊢
    obtain ⟨init, p, hip⟩ : ∃ init p, h :: t = init ++ [p] := by
      rcases List.eq_nil_or_concat (h :: t) with e | ⟨i, q, e⟩
      · simp at e
      · exact ⟨i, q, by simpa using e⟩
    have hplast : prev.words.getLast? = some p := by rw [hp, hip]; simp
    -- facts about uids
    have hnd' : ((h' :: t' ++ wordsOf ls).map (·.uid)).Nodup := by
      rw [List.map_append] at hnd; exact (List.nodup_append.1 hnd).2.1
    have hdisj : ∀ w ∈ h :: t, ∀ v ∈ h' :: t' ++ wordsOf ls, w.uid ≠ v.uid := by
      rw [List.map_append] at hnd
      intro w hw v hv
      exact (List.nodup_append.1 hnd).2.2 _ (List.mem_map_of_mem hw) _ (List.mem_map_of_mem hv)
    have hndht : ((h :: t).map (·.uid)).Nodup := by
      rw [List.map_append] at hnd; exact (List.nodup_append.1 hnd).1
    have hinitp : ∀ w ∈ init, w.uid ≠ p.uid := by
      rw [hip, List.map_append] at hndht
      intro w hw
      exact (List.nodup_append.1 hndht).2.2 _ (List.mem_map_of_mem hw) _ (by simp)
    have hpmem : p ∈ h :: t := by rw [hip]; simp
    have hlmem : ∀ q, l.words.getLast? = some q → q ∈ h' :: t' ++ wordsOf ls := fun q hq => by
      have := List.mem_of_getLast? hq
      rw [hl] at this
      exact List.mem_append_left _ this
    -- the flags of the words of this line are not changed later
    have hlater : ∀ (g : Flags), (∀ w ∈ h :: t, (ls.foldl step (g, some l)).1.second w.uid = g.second w.uid ∧
        (ls.foldl step (g, some l)).1.first w.uid = g.first w.uid) := by
      intro g w hw
      have h1 : w.uid ∉ (wordsOf ls).map (·.uid) := by
        intro hc
        obtain ⟨v, hv, e⟩ := List.mem_map.1 hc
        exact hdisj w hw v (List.mem_append_right _ hv) e.symm
      have := fold_unchanged ls g l w.uid h1
      exact ⟨this.1, this.2 fun q hq => (hdisj w hw q (hlmem q hq)).symm⟩
    -- the head of the texts
    have htext : p.text = x ∧ init = [] ∧ t = [] ∨ (t ≠ []) ∨ (f.second h.uid = true ∧ t = [] ∧ p = h ∧ init = []) := by
      rcases t with _ | ⟨a, b⟩
      · have : init = [] ∧ p = h := by
          cases init with
          | nil => simp at hip; exact ⟨rfl, hip.symm⟩
          | cons c d => simp at hip
        rcases hx with ⟨-, h2⟩ | ⟨h1, -⟩
        · exact Or.inl ⟨by rw [h2, this.2], this.1, rfl⟩
        · exact Or.inr (Or.inr ⟨h1, rfl, this.2, this.1⟩)
      · exact Or.inr (Or.inl (by simp))
    rw [List.foldl_cons]
    by_cases hy : Hyphenated p.text
    · -- the last word of the line is split
      have hm : mergedText p.text h'.text = some (p.text.dropLast ++ h'.text) := by rw [mergedText_eq, if_pos hy]
      have hstep : step (f, some prev) l = (⟨Function.update f.first p.uid (some (p.text.dropLast ++ h'.text)), Function.update f.second h'.uid true⟩, some l) := by
        simp [step, hl, hplast, hm]
      rw [hstep]
      set g : Flags := ⟨Function.update f.first p.uid (some (p.text.dropLast ++ h'.text)), Function.update f.second h'.uid true⟩ with hg
      -- p is not the second part of a word
      have hpsec : f.second p.uid = false := by
        rcases t with _ | ⟨a, b⟩
        · have : p = h := by
            cases init with
            | nil => simp at hip; exact hip.symm
            | cons c d => simp at hip
          rcases hx with ⟨h1, -⟩ | ⟨-, -, h3⟩
          · rw [this]; exact h1
          · rcases h3 with h3 | h3 | h3
            · exact absurd rfl h3
            · cases h3
            · rw [this] at hy
              exact absurd hy (by simpa using not_hyphenated_append (y := []) h3)
        · have : p ∈ a :: b := by
            cases init with
            | nil => simp at hip
            | cons c d =>
              have := (List.cons.inj hip).2
              rw [this]; simp
          exact hs p (List.mem_append_left _ this)
      have hgs : g.second h'.uid = true := by simp [hg]
      have hg1 : ∀ w ∈ h' :: t' ++ wordsOf ls, g.first w.uid = none := by
        intro w hw
        rw [hg]
        simp only
        rw [Function.update_of_ne (hdisj p hpmem w hw).symm]
        exact hf w (List.mem_append_right _ hw)
      have hg2 : ∀ w ∈ t' ++ wordsOf ls, g.second w.uid = false := by
        intro w hw
        have hne' : w.uid ≠ h'.uid := by
          simp only [List.cons_append, List.map_cons, List.nodup_cons] at hnd'
          intro e
          exact hnd'.1 (e ▸ List.mem_map_of_mem hw)
        rw [hg]
        simp only
        rw [Function.update_of_ne hne']
        exact hs w (by simp only [List.cons_append, List.mem_append, List.mem_cons] at hw ⊢; tauto)
      have hcond : t' ≠ [] ∨ ls = [] ∨ NoHyphenEnd h'.text := by
        rcases t' with _ | ⟨a, b⟩
        · rcases ls with _ | ⟨l2, ls⟩
          · exact Or.inr (Or.inl rfl)
          · right; right
            refine hch [] (h.text :: t.map (·.text)) h'.text (sLineTexts l2) (ls.map sLineTexts) (by simp) ?_
            refine ⟨p.text, ?_, hy⟩
            have : h.text :: t.map (·.text) = (h :: t).map (·.text) := rfl
            rw [this, hip]; simp
        · exact Or.inl (by simp)
      have hih := ih g l h' t' (p.text.dropLast ++ h'.text) hl (fun l' hl' => hne l' (List.mem_cons_of_mem _ hl')) hnd' hg1 hg2
        (noChain_tail hch) (Or.inr ⟨hgs, ⟨_, rfl⟩, hcond⟩)
      rw [hgs, if_pos rfl] at hih
      -- what is printed for this line
      have hthis : printedWith (ls.foldl step (g, some l)).1 (h :: t) =
          printedWith f init ++ [p.text.dropLast ++ h'.text] := by
        rw [printedWith_congr (g := g) (fun w hw => (hlater g w hw).2) (fun w hw => (hlater g w hw).1), hip, printedWith_append]
        congr 1
        · refine printedWith_congr (fun w hw => ?_) (fun w hw => ?_)
          · rw [hg]; exact Function.update_of_ne (hinitp w hw) _ _
          · rw [hg]
            exact Function.update_of_ne (hdisj w (by rw [hip]; simp [hw]) h' (by simp)) _ _
        · have e1 : g.second p.uid = false := by
            rw [hg]; simp only; rw [Function.update_of_ne (hdisj p hpmem h' (by simp))]; exact hpsec
          have e2 : g.first p.uid = some (p.text.dropLast ++ h'.text) := by simp [hg]
          simp [printedWith, e1, e2]
      rw [printedWith_append, hthis]
      have hfin : (if f.second h.uid = true then [x] else []) ++ printedWith f init = (x :: t.map (·.text)).dropLast ∧
          (x :: t.map (·.text)).getLast? = some p.text := by
        cases init with
        | nil =>
          simp at hip
          obtain ⟨rfl, rfl⟩ := hip
          rw [hpsec]
          rcases hx with ⟨-, h2⟩ | ⟨h1, -⟩
          · simp [printedWith, h2]
          · rw [hpsec] at h1; simp at h1
        | cons c d =>
          obtain ⟨rfl, hd⟩ := List.cons.inj hip
          have hd : t = d ++ [p] := hd
          have e1 : printedWith f d = d.map (·.text) := printedWith_unset
            (fun w hw => hf w (by rw [hd]; simp [hw])) (fun w hw => hs w (by rw [hd]; simp [hw]))
          have e2 : h :: d = [h] ++ d := rfl
          rw [e2, printedWith_append, e1, hd]
          refine ⟨?_, by simp [List.getLast?_cons]⟩
          have e3 : (x :: List.map (·.text) (d ++ [p])).dropLast = x :: d.map (·.text) := by
            have : x :: List.map (·.text) (d ++ [p]) = (x :: d.map (·.text)) ++ [p.text] := by simp
            rw [this, List.dropLast_concat]
          rw [e3]
          rcases hx with ⟨h1, h2⟩ | ⟨h1, -⟩
          · simp [printedWith, h1, h2, hf h (by simp)]
          · simp [printedWith, h1]
      have hsplit : x :: t.map (·.text) = (x :: t.map (·.text)).dropLast ++ [p.text] := by
        have := List.dropLast_append_getLast? _ hfin.2
        exact this.symm
      rw [hsplit, joinLines_join hy, ← hih, ← hfin.1]
      simp [wordsOf]
    · -- no split word
      have hm : mergedText p.text h'.text = none := by rw [mergedText_eq, if_neg hy]
      have hstep : step (f, some prev) l = (f, some l) := by simp [step, hl, hplast, hm]
      rw [hstep]
      have hsh' : f.second h'.uid = false := hs h' (by simp)
      have hih := ih f l h' t' h'.text hl (fun l' hl' => hne l' (List.mem_cons_of_mem _ hl')) hnd'
        (fun w hw => hf w (List.mem_append_right _ hw))
        (fun w hw => hs w (by simp only [List.cons_append, List.mem_append, List.mem_cons] at hw ⊢; tauto))
        (noChain_tail hch) (Or.inl ⟨hsh', rfl⟩)
      rw [hsh', if_neg (by simp), List.nil_append] at hih
      have hthis : printedWith (ls.foldl step (f, some l)).1 (h :: t) = printedWith f (h :: t) :=
        printedWith_congr (fun w hw => (hlater f w hw).2) (fun w hw => (hlater f w hw).1)
      rw [printedWith_append, hthis]
      have ht := printedWith_unset (f := f) (ws := t) (fun w hw => hf w (by simp [hw])) (fun w hw => hs w (by simp [hw]))
      have hfin : (if f.second h.uid = true then [x] else []) ++ printedWith f (h :: t) = x :: t.map (·.text) := by
        have e2 : h :: t = [h] ++ t := rfl
        rw [e2, printedWith_append, ht]
        rcases hx with ⟨h1, h2⟩ | ⟨h1, -⟩
        · simp [printedWith, h1, h2, hf h (by simp)]
        · simp [printedWith, h1]
      obtain ⟨q, hq, hqy⟩ : ∃ q, (x :: t.map (·.text)).getLast? = some q ∧ ¬ Hyphenated q := by
        rcases t with _ | ⟨a, b⟩
        · refine ⟨x, by simp, ?_⟩
          have : p = h := by
            cases init with
            | nil => simp at hip; exact hip.symm
            | cons c d => simp at hip
          rcases hx with ⟨-, h2⟩ | ⟨-, ⟨y, h2⟩, h3⟩
          · rw [h2, ← this]; exact hy
          · rcases h3 with h3 | h3 | h3
            · exact absurd rfl h3
            · cases h3
            · rw [h2]; exact not_hyphenated_append h3
        · refine ⟨p.text, ?_, hy⟩
          cases init with
          | nil => simp at hip
          | cons c d =>
            have := (List.cons.inj hip).2
            rw [this]
            simp [List.getLast?_cons]
      have hsplit : x :: t.map (·.text) = (x :: t.map (·.text)).dropLast ++ [q] := (List.dropLast_append_getLast? _ hq).symm
      rw [hsplit, joinLines_skip hqy, ← hih, ← hsplit, ← hfin]
      simp [wordsOf]

/-! ## Documents -/

/-- Joining ignores empty lines. -/
theorem joinLines_filter (ls : List (List Str)) : joinLines (ls.filter fun l => !l.isEmpty) = joinLines ls := by
  fun_induction joinLines ls with
  | case1 => simp [joinLines]
  | case2 l =>
    cases l with
    | nil => simp [joinLines]
    | cons a l => simp [joinLines]
  | case3 l ls ih =>
    rw [← ih]
    cases l <;> simp
  | case4 l v vs ls w hw hy ih =>
    obtain ⟨init, rfl⟩ : ∃ init, l = init ++ [w] := ⟨l.dropLast, (List.dropLast_append_getLast? _ hw).symm⟩
    have e1 : ((init ++ [w]) :: (v :: vs) :: ls).filter (fun l => !l.isEmpty) =
        (init ++ [w]) :: (v :: vs) :: ls.filter fun l => !l.isEmpty := by simp
    have e2 : (((w.dropLast ++ v) :: vs) :: ls).filter (fun l => !l.isEmpty) =
        ((w.dropLast ++ v) :: vs) :: ls.filter fun l => !l.isEmpty := by simp
    rw [e1, joinLines_join hy, ← ih, e2]
    simp
  | case5 l v vs ls w hw hy ih =>
    obtain ⟨init, rfl⟩ : ∃ init, l = init ++ [w] := ⟨l.dropLast, (List.dropLast_append_getLast? _ hw).symm⟩
    have e1 : ((init ++ [w]) :: (v :: vs) :: ls).filter (fun l => !l.isEmpty) =
        (init ++ [w]) :: (v :: vs) :: ls.filter fun l => !l.isEmpty := by simp
    have e2 : ((v :: vs) :: ls).filter (fun l => !l.isEmpty) = (v :: vs) :: ls.filter fun l => !l.isEmpty := by simp
    rw [e1, joinLines_skip hy, ← ih, e2]
  | case6 l v vs ls hn ih =>
    have : l = [] := by simpa using hn
    subst this
    rw [← ih]
    simp

theorem step_filter (ls : List SLine) : ∀ st, ls.foldl step st = (ls.filter fun l => !l.words.isEmpty).foldl step st := by
  induction ls with
  | nil => intro st; rfl
  | cons l ls ih =>
    intro st
    rcases hl : l.words with _ | ⟨w, ws⟩
    · have : step st l = st := by simp [step, hl]
      rw [List.foldl_cons, this, List.filter_cons_of_neg (by simp [hl]), ih]
    · rw [List.foldl_cons, List.filter_cons_of_pos (by simp [hl]), List.foldl_cons, ih]

/-- A document before de-hyphenation: the words are distinct objects, no word is marked as part of a hyphenated word, and
the text of a word is what its characters print (C24). -/
structure FreshDoc (doc : SDoc) : Prop where
  nodup : ((wordsOf (allLines doc)).map (·.uid)).Nodup
  first : ∀ w ∈ wordsOf (allLines doc), w.first = none
  second : ∀ w ∈ wordsOf (allLines doc), w.second = false
  text : ∀ w ∈ wordsOf (allLines doc), wordOut w = w.text

/-- The words printed for a document, in order. -/
def printedWords (doc : SDoc) : List Str :=
  ((wordsOf (allLines doc)).filter fun w => !w.second).map wordOut

theorem allLines_process (doc : SDoc) : allLines (process doc) =
    (allLines doc).map (SLine.setFlags ((allLines doc).foldl step (initFlags doc, none)).1) := by
  unfold process
  generalize ((allLines doc).foldl step (initFlags doc, none)).1 = f
  unfold allLines
  simp only [List.flatMap_map, List.map_flatMap]

theorem printedWords_process (doc : SDoc) (h : FreshDoc doc) :
    printedWords (process doc) = printedWith ((allLines doc).foldl step (initFlags doc, none)).1 (wordsOf (allLines doc)) := by
  unfold printedWords
  rw [allLines_process]
  have key : ∀ (f : Flags) (ws : List SWord), (∀ w ∈ ws, w.first = none) → (∀ w ∈ ws, wordOut w = w.text) →
      ((ws.map fun w => { w with first := f.first w.uid, second := f.second w.uid }).filter fun w => !w.second).map wordOut =
        printedWith f ws := by
    intro f ws
    induction ws with
    | nil => intro _ _; rfl
    | cons w ws ih =>
      intro h1 h2
      have ih' := ih (fun v hv => h1 v (List.mem_cons_of_mem _ hv)) (fun v hv => h2 v (List.mem_cons_of_mem _ hv))
      have e1 := h1 w (by simp)
      have e2 := h2 w (by simp)
      have e3 : wordOut { w with first := f.first w.uid, second := f.second w.uid } = (f.first w.uid).getD w.text := by
        rw [← e2]
        unfold wordOut
        simp only [e1]
        cases f.first w.uid <;> rfl
      unfold printedWith at ih' ⊢
      rw [List.map_cons]
      by_cases hs : f.second w.uid = true
      · rw [List.filter_cons_of_neg (by simp [hs]), List.filter_cons_of_neg (by simp [hs]), ih']
      · rw [List.filter_cons_of_pos (by simpa using hs), List.filter_cons_of_pos (by simpa using hs), List.map_cons, List.map_cons, ih', e3]
  rw [← key _ _ h.first h.text]
  congr 1
  simp only [wordsOf, List.flatMap_map, List.map_flatMap, SLine.setFlags]

/-- **C37.** For every document in which no single-word line between two others both continues a hyphenated word and
ends in a hyphen itself: the words printed after de-hyphenation are exactly the words of the lines, in order, except that a hyphenated
word at the end of a line is printed once, without the hyphen, joined with the first word of the next line, which is not printed
on its own. Missing: the chains, for which the claim is false, see `c37_chain_loses_text`. -/
theorem c37_printed_words_partial (doc : SDoc) (h : FreshDoc doc)
    (hch : NoChain (((allLines doc).map fun l => l.words.map (·.text)).filter fun l => !l.isEmpty)) :
    printedWords (process doc) = joinLines ((allLines doc).map fun l => l.words.map (·.text)) := by
  rw [printedWords_process doc h, step_filter, ← joinLines_filter]
  have hw : wordsOf (allLines doc) = wordsOf ((allLines doc).filter fun l => !l.words.isEmpty) := by
    unfold wordsOf
    induction allLines doc with
    | nil => rfl
    | cons l ls ih =>
      rcases hl : l.words with _ | ⟨w, ws⟩
      · rw [List.filter_cons_of_neg (by simp [hl]), List.flatMap_cons, hl, ih]; rfl
      · rw [List.filter_cons_of_pos (by simp [hl]), List.flatMap_cons, List.flatMap_cons, ih]
  have hlt : ((allLines doc).map fun l => l.words.map (·.text)).filter (fun l => !l.isEmpty) =
      ((allLines doc).filter fun l => !l.words.isEmpty).map sLineTexts := by
    rw [List.filter_map]
    congr 1
    apply List.filter_congr
    intro l _
    simp
  rw [hlt] at hch ⊢
  have hnd := h.nodup
  have hf : ∀ u, (initFlags doc).first u = none := by
    intro u
    unfold initFlags
    simp only
    rcases hq : (((allLines doc).flatMap (·.words)).find? fun w => w.uid == u) with _ | w
    · rw [hq]; rfl
    · rw [hq]; exact h.first w (List.mem_of_find?_eq_some hq)
  have hs : ∀ u, (initFlags doc).second u = false := by
    intro u
    unfold initFlags
    simp only
    rcases hq : (((allLines doc).flatMap (·.words)).find? fun w => w.uid == u) with _ | w
    · rw [hq]; rfl
    · rw [hq]; exact h.second w (List.mem_of_find?_eq_some hq)
  rw [hw] at hnd ⊢
  have hne : ∀ l ∈ (allLines doc).filter fun l => !l.words.isEmpty, l.words ≠ [] := by
    intro l hl
    simpa using (List.mem_filter.1 hl).2
  generalize (allLines doc).filter (fun l => !l.words.isEmpty) = ls at hch hnd hne ⊢
  cases ls with
  | nil => simp [joinLines, wordsOf, printedWith]
  | cons l ls =>
    rcases hl : l.words with _ | ⟨w, ws⟩
    · exact absurd hl (hne l (by simp))
    · have hstep : step (initFlags doc, none) l = (initFlags doc, some l) := by simp [step, hl]
      have hwo : wordsOf (l :: ls) = w :: ws ++ wordsOf ls := by simp [wordsOf, hl]
      have hlt' : sLineTexts l = w.text :: ws.map (·.text) := by simp [sLineTexts, hl]
      rw [List.foldl_cons, hstep, hwo, List.map_cons, hlt']
      have := main_fold ls (initFlags doc) l w ws w.text hl (fun l' h' => hne l' (List.mem_cons_of_mem _ h'))
        (by rw [← hwo]; exact hnd) (fun _ _ => hf _) (fun _ _ => hs _) (by simpa [hlt'] using hch) (Or.inl ⟨hs _, rfl⟩)
      rw [hs] at this
      simpa using this

/-- A document of one block with the given lines of words. -/
def docOfLines (ls : List (List String)) : SDoc :=
  { pages := [{ blocks := [{ role := .paragraph, lines := ls.zipIdx.map fun (l, i) =>
      { words := l.zipIdx.map fun (t, j) => { uid := 100 * i + j, text := t.toList, chars := t.toList.map fun c => { text := [c] } } } }] }] }

example : FreshDoc (docOfLines [["the", "exam-"], ["ple", "of-"], ["ten"]]) :=
  ⟨by decide +kernel, by decide +kernel, by decide +kernel, by decide +kernel⟩

example : NoChain [["the".toList, "exam-".toList], ["ple".toList, "of-".toList], ["ten".toList]] := by
  intro a w v l' b h _
  have hlen := congrArg List.length h
  have ha : a = [] := by
    simp at hlen
    exact List.eq_nil_of_length_eq_zero (by omega)
  subst ha
  simp at h

example : printedWords (process (docOfLines [["the", "exam-"], ["ple", "of-"], ["ten"]])) =
    ["the".toList, "example".toList, "often".toList] := by decide +kernel

/-- **C37, refuted part.** A word split over three lines loses its last part: it is neither printed on its own nor joined, and
a hyphen stays inside of the text. -/
theorem c37_chain_loses_text :
    FreshDoc (docOfLines [["foo-"], ["bar-"], ["baz"]]) ∧
    printedWords (process (docOfLines [["foo-"], ["bar-"], ["baz"]])) = ["foobar-".toList] := by
  exact ⟨⟨by decide +kernel, by decide +kernel, by decide +kernel, by decide +kernel⟩, by decide +kernel⟩

/-- Two blocks with different roles, the first one ending in a hyphenated word. -/
def twoRoles : SDoc :=
  let w (u : ℕ) (t : String) : SWord := { uid := u, text := t.toList, chars := t.toList.map fun c => { text := [c] } }
  { pages := [{ blocks := [{ role := .marginal, lines := [⟨[w 0 "A-"]⟩] }, { role := .paragraph, lines := [⟨[w 1 "Our", w 2 "text"]⟩] }] }] }

/-- **C37, refuted part.** Words are joined across blocks of different roles; if only one of the roles is printed, the first word of a
printed paragraph can be missing from the output. -/
theorem c37_joined_across_roles_loses_text :
    FreshDoc twoRoles ∧ plainText [.paragraph] twoRoles = "Our text\n".toList ∧
    plainText [.paragraph] (process twoRoles) = "text\n".toList ∧
    plainText allRoles (process twoRoles) = "AOur\n\ntext\n".toList := by
  exact ⟨⟨by decide +kernel, by decide +kernel, by decide +kernel, by decide +kernel⟩, by decide +kernel, by decide +kernel, by decide +kernel⟩

/-- **C37.** De-hyphenation changes nothing but the two marks: the blocks, their roles and the texts, characters and positions of all words stay. -/
theorem c37_only_marks_change (doc : SDoc) :
    (process doc).pages.map (fun p => p.blocks.map fun b => (b.role, b.text, b.lines.map fun l => l.words.map fun w =>
      (w.uid, w.text, w.fontName, w.fontSize, w.rank, w.id))) =
    doc.pages.map (fun p => p.blocks.map fun b => (b.role, b.text, b.lines.map fun l => l.words.map fun w =>
      (w.uid, w.text, w.fontName, w.fontSize, w.rank, w.id))) ∧
    (wordsOf (allLines (process doc))).map (fun w => (w.chars, w.pos)) = (wordsOf (allLines doc)).map fun w => (w.chars, w.pos) := by
  constructor
  · simp [process, SLine.setFlags, Function.comp_def]
  · rw [allLines_process]
    simp [wordsOf, List.flatMap_map, List.map_flatMap, SLine.setFlags, Function.comp_def]

end Verif.Props
