import Verif.Props.Dehyphenation
import Verif.Spec.Paragraph

/-!
# C99: hyphenated words at the end of rows
-/

namespace Verif.Props

open Verif.Serialize Verif.Spec Verif.Dehyphenation

/-- What is printed of a line whose words, apart from the first, are not marked as continuations. -/
theorem pp_printedWith_line {g : Flags} {h : SWord} {t : List SWord} {b : Bool} (hb : g.second h.uid = b) (hs : ∀ w ∈ t, g.second w.uid = false) :
    printedWith g (h :: t) = ((h :: t).map fun w => (g.first w.uid).getD w.text).drop (if b then 1 else 0) := by
  subst hb
  have ht : printedWith g t = t.map fun w => (g.first w.uid).getD w.text := by
    unfold printedWith
    rw [List.filter_eq_self.2 fun w hw => by simp [hs w hw]]
  rw [show h :: t = [h] ++ t from rfl, printedWith_append, ht]
  cases hg : g.second h.uid <;> simp [printedWith, hg]

/-- The flags after the loop, line by line. -/
theorem pp_dehyph_rows (rest : List SLine) : ∀ (f : Flags) (prev : SLine) (h : SWord) (t : List SWord), prev.words = h :: t → (∀ l ∈ rest, l.words ≠ []) →
    ((h :: t ++ wordsOf rest).map (·.uid)).Nodup → (∀ w ∈ h :: t ++ wordsOf rest, f.first w.uid = none) → (∀ w ∈ t ++ wordsOf rest, f.second w.uid = false) →
    (prev :: rest).map (fun l => printedWith (rest.foldl step (f, some prev)).1 l.words) = joinRowsFrom (f.second h.uid) ((prev :: rest).map sLineTexts) := by
  induction rest with
  | nil =>
    intro f prev h t hp _ _ hf hs
    simp only [wordsOf, List.flatMap_nil, List.append_nil] at hf hs
    rw [List.foldl_nil, List.map_cons, List.map_nil, List.map_cons, List.map_nil, joinRowsFrom, hp, pp_printedWith_line rfl hs]
    congr 2
    unfold sLineTexts
    rw [hp]
    exact List.map_congr_left fun w hw => by rw [hf w hw]; rfl
  | cons l ls ih =>
    intro f prev h t hp hne hnd hf hs
    obtain ⟨h', t', hl⟩ : ∃ h' t', l.words = h' :: t' := by
      rcases e : l.words with _ | ⟨a, b⟩
      · exact absurd e (hne l (by simp))
      · exact ⟨a, b, rfl⟩
    have hW : wordsOf (l :: ls) = h' :: t' ++ wordsOf ls := by simp [wordsOf, hl]
    rw [hW] at hnd hf hs
    obtain ⟨init, p, hip⟩ : ∃ init p, h :: t = init ++ [p] := by
      rcases List.eq_nil_or_concat (h :: t) with e | ⟨i, q, e⟩
      · simp at e
      · exact ⟨i, q, by simpa using e⟩
    have hplast : prev.words.getLast? = some p := by rw [hp, hip]; simp
    rw [List.map_append] at hnd
    obtain ⟨hndht, hnd', hdisj0⟩ := List.nodup_append.1 hnd
    have hdisj : ∀ w ∈ h :: t, ∀ v ∈ h' :: t' ++ wordsOf ls, w.uid ≠ v.uid := fun w hw v hv => hdisj0 _ (List.mem_map_of_mem hw) _ (List.mem_map_of_mem hv)
    have hinitp : ∀ w ∈ init, w.uid ≠ p.uid := by
      rw [hip, List.map_append] at hndht
      intro w hw
      exact (List.nodup_append.1 hndht).2.2 _ (List.mem_map_of_mem hw) _ (by simp)
    have hpmem : p ∈ h :: t := by rw [hip]; simp
    have hlmem : ∀ q, l.words.getLast? = some q → q ∈ h' :: t' ++ wordsOf ls := fun q hq => by
      have := List.mem_of_getLast? hq
      rw [hl] at this
      exact List.mem_append_left _ this
    have hlater : ∀ (g : Flags), printedWith (ls.foldl step (g, some l)).1 (h :: t) = printedWith g (h :: t) := by
      intro g
      have key : ∀ w ∈ h :: t, (ls.foldl step (g, some l)).1.second w.uid = g.second w.uid ∧ (ls.foldl step (g, some l)).1.first w.uid = g.first w.uid := by
        intro w hw
        have h1 : w.uid ∉ (wordsOf ls).map (·.uid) := by
          intro hc
          obtain ⟨v, hv, e⟩ := List.mem_map.1 hc
          exact hdisj w hw v (List.mem_append_right _ hv) e.symm
        have := fold_unchanged ls g l w.uid h1
        exact ⟨this.1, this.2 fun q hq => (hdisj w hw q (hlmem q hq)).symm⟩
      exact printedWith_congr (fun w hw => (key w hw).2) fun w hw => (key w hw).1
    have htexts : sLineTexts prev = (h :: t).map (·.text) := by unfold sLineTexts; rw [hp]
    have hlast : (sLineTexts prev).getLastD [] = p.text := by rw [htexts, hip]; simp
    have hinit : (sLineTexts prev).dropLast = init.map (·.text) := by rw [htexts, hip]; simp
    have hhead : (sLineTexts l).headD [] = h'.text := by unfold sLineTexts; rw [hl]; rfl
    have hne' : ∀ l' ∈ ls, l'.words ≠ [] := fun l' hl' => hne l' (List.mem_cons_of_mem _ hl')
    rw [List.foldl_cons, List.map_cons, hp, List.map_cons (f := sLineTexts), List.map_cons (f := sLineTexts), joinRowsFrom, hlast, hinit, hhead]
    by_cases hy : Hyphenated p.text
    · have hm : mergedText p.text h'.text = some (p.text.dropLast ++ h'.text) := by rw [mergedText_eq, if_pos hy]
      have hstep : step (f, some prev) l = (⟨Function.update f.first p.uid (some (p.text.dropLast ++ h'.text)), Function.update f.second h'.uid true⟩, some l) := by
        simp [step, hl, hplast, hm]
      rw [hstep, if_pos hy, hlater]
      have hg1 : ∀ w ∈ h' :: t' ++ wordsOf ls, Function.update f.first p.uid (some (p.text.dropLast ++ h'.text)) w.uid = none := by
        intro w hw
        rw [Function.update_of_ne (hdisj p hpmem w hw).symm]
        exact hf w (List.mem_append_right _ hw)
      have hg2 : ∀ w ∈ t' ++ wordsOf ls, Function.update f.second h'.uid true w.uid = false := by
        intro w hw
        have hne' : w.uid ≠ h'.uid := by
          simp only [List.cons_append, List.map_cons, List.nodup_cons] at hnd'
          intro e
          exact hnd'.1 (e ▸ List.mem_map_of_mem hw)
        rw [Function.update_of_ne hne']
        exact hs w (by simp only [List.cons_append, List.mem_append, List.mem_cons] at hw ⊢; tauto)
      have hih := ih ⟨Function.update f.first p.uid (some (p.text.dropLast ++ h'.text)), Function.update f.second h'.uid true⟩ l h' t' hl hne' hnd' hg1 hg2
      rw [hih]
      simp only [Function.update_self, List.map_cons]
      congr 1
      have hsec : ∀ w ∈ h :: t, Function.update f.second h'.uid true w.uid = f.second w.uid := fun w hw => Function.update_of_ne (hdisj w hw h' (by simp)) _ _
      rw [pp_printedWith_line (hsec h (by simp)) fun w hw => (hsec w (List.mem_cons_of_mem _ hw)).trans (hs w (List.mem_append_left _ hw))]
      simp only
      rw [hip, List.map_append, List.map_cons, List.map_nil, Function.update_self]
      congr 2
      refine List.map_congr_left fun w hw => ?_
      rw [Function.update_of_ne (hinitp w hw), hf w (by rw [hip]; simp [hw])]
      rfl
    · have hm : mergedText p.text h'.text = none := by rw [mergedText_eq, if_neg hy]
      have hstep : step (f, some prev) l = (f, some l) := by simp [step, hl, hplast, hm]
      rw [hstep, if_neg hy, hlater]
      have hih := ih f l h' t' hl hne' hnd' (fun w hw => hf w (List.mem_append_right _ hw))
        (fun w hw => hs w (by simp only [List.cons_append, List.mem_append, List.mem_cons] at hw ⊢; tauto))
      rw [hih, hs h' (by simp)]
      congr 1
      rw [pp_printedWith_line rfl fun w hw => hs w (List.mem_append_left _ hw), htexts]
      congr 1
      exact List.map_congr_left fun w hw => by rw [hf w (List.mem_append_left _ hw)]; rfl

/-- The flags of the whole text. -/
theorem pp_fold_all {ls : List SLine} {f : Flags} (hne : ∀ l ∈ ls, l.words ≠ []) (hnd : ((wordsOf ls).map (·.uid)).Nodup) (h1 : ∀ u, f.first u = none) (h2 : ∀ u, f.second u = false) :
    ls.map (fun l => printedWith (ls.foldl step (f, none)).1 l.words) = joinRows (ls.map sLineTexts) := by
  cases ls with
  | nil => rfl
  | cons l ls =>
    obtain ⟨h, t, hl⟩ : ∃ h t, l.words = h :: t := by
      rcases e : l.words with _ | ⟨a, b⟩
      · exact absurd e (hne l (by simp))
      · exact ⟨a, b, rfl⟩
    have hstep : step (f, none) l = (f, some l) := by simp [step, hl]
    rw [List.foldl_cons, hstep, joinRows, ← h2 h.uid]
    refine pp_dehyph_rows ls f l h t hl (fun l' hl' => hne l' (List.mem_cons_of_mem _ hl')) ?_ (fun w _ => h1 _) fun w _ => h2 _
    simpa [wordsOf, hl] using hnd

theorem pp_joinRows_length (rows : List (List (List Char))) : ∀ b, (joinRowsFrom b rows).length = rows.length := by
  induction rows with
  | nil => intro b; rfl
  | cons row rows ih =>
    intro b
    cases rows with
    | nil => rfl
    | cons next rows =>
      rw [joinRowsFrom]
      split
      · simp [ih]
      · simp [ih]

/-- Without hyphenated words nothing is joined. -/
theorem pp_joinRows_whole {rows : List (List (List Char))} (h : WholeWords rows) : joinRows rows = rows := by
  unfold joinRows
  induction rows with
  | nil => rfl
  | cons row rows ih =>
    cases rows with
    | nil => simp [joinRowsFrom]
    | cons next rows =>
      rw [joinRowsFrom, if_neg, ih fun r hr => h r (by simp [hr])]
      · simp
      · cases hl : row.getLast? with
        | none =>
          rw [List.getLast?_eq_none_iff] at hl
          subst hl
          exact fun hh => absurd hh.1 (by simp)
        | some w =>
          rw [List.getLastD_eq_getLast?, hl]
          exact h row (by simp) w hl

/-- Without chains of hyphenated words, what is printed of rows are the words of the rows after joining (`joinLines`). -/
theorem pp_joinRows_from (ls : List (List (List Char))) : ∀ (v : List Char) (vs : List (List Char)), (∀ l ∈ ls, l ≠ []) → NoChain ((v :: vs) :: ls) →
    (joinRowsFrom false ((v :: vs) :: ls)).flatten = joinLines ((v :: vs) :: ls) ∧
    ((vs = [] → ls ≠ [] → NoHyphenEnd v) → ∀ u, (u ++ v) :: (joinRowsFrom true ((v :: vs) :: ls)).flatten = joinLines (((u ++ v) :: vs) :: ls)) := by
  induction ls with
  | nil =>
    intro v vs _ _
    refine ⟨?_, fun _ u => ?_⟩
    · simp [joinRowsFrom, joinLines]
    · simp [joinRowsFrom, joinLines]
  | cons next ls ih =>
    intro v vs hne hch
    obtain ⟨n, ns, rfl⟩ : ∃ n ns, next = n :: ns := by
      cases hc : next with
      | nil => exact absurd hc (hne next (by simp))
      | cons a b => exact ⟨a, b, rfl⟩
    obtain ⟨i1, i2⟩ := ih n ns (fun l hl => hne l (List.mem_cons_of_mem _ hl)) (noChain_tail hch)
    obtain ⟨c, w, hcw⟩ : ∃ c w, v :: vs = c ++ [w] := by
      obtain ⟨c, w, e⟩ := List.eq_nil_or_concat (v :: vs) |>.resolve_left (by simp)
      exact ⟨c, w, by rw [e, List.concat_eq_append]⟩
    have hlast : (v :: vs).getLastD [] = w := by rw [hcw, List.getLastD_concat]
    have hdrop : (v :: vs).dropLast = c := by rw [hcw, List.dropLast_concat]
    have i2' : Hyphenated w → ∀ u, (u ++ n) :: (joinRowsFrom true ((n :: ns) :: ls)).flatten = joinLines (((u ++ n) :: ns) :: ls) := by
      intro hw
      refine i2 ?_
      rintro rfl hls
      obtain ⟨l', b, rfl⟩ : ∃ l' b, ls = l' :: b := by
        cases hc : ls with
        | nil => exact absurd hc hls
        | cons a b => exact ⟨a, b, rfl⟩
      exact hch [] (v :: vs) n l' b rfl ⟨w, by rw [hcw]; simp, hw⟩
    refine ⟨?_, fun hv u => ?_⟩
    · rw [joinRowsFrom, hlast, hdrop]
      by_cases hw : Hyphenated w
      · rw [if_pos hw, hcw, joinLines_join hw, ← i2' hw]
        simp
      · rw [if_neg hw, hcw, joinLines_skip hw, ← i1]
        simp
    · rw [joinRowsFrom, hlast, hdrop]
      cases c with
      | nil =>
        rw [List.nil_append, List.cons.injEq] at hcw
        obtain ⟨rfl, rfl⟩ := hcw
        have h1 := hv rfl (by simp)
        have h2 : ¬ Hyphenated v := by
          have := not_hyphenated_append (y := []) h1
          simpa using this
        rw [if_neg h2, show [u ++ v] = [] ++ [u ++ v] from rfl, joinLines_skip (not_hyphenated_append h1), ← i1]
        simp
      | cons v' c =>
        rw [List.cons_append, List.cons.injEq] at hcw
        obtain ⟨rfl, rfl⟩ := hcw
        by_cases hw : Hyphenated w
        · have e := joinLines_join (init := (u ++ v) :: c) (v := n) (vs := ns) (ls := ls) hw
          rw [List.cons_append] at e
          rw [if_pos hw, e, ← i2' hw]
          simp
        · have e := joinLines_skip (init := (u ++ v) :: c) (v := n) (vs := ns) (ls := ls) hw
          rw [List.cons_append] at e
          rw [if_neg hw, e, ← i1]
          simp

/-- **C99.** The words printed of rows are the words of the rows after joining, as C37 specifies it (unless a row that continues a hyphenated word is itself a single hyphenated word). -/
theorem c99_joined {rows : List (List (List Char))} (hne : ∀ row ∈ rows, row ≠ []) (hch : NoChain rows) : (joinRows rows).flatten = joinLines rows := by
  cases rows with
  | nil => simp [joinRows, joinRowsFrom, joinLines]
  | cons row rows =>
    cases row with
    | nil => exact absurd rfl (hne [] (by simp))
    | cons v vs => exact (pp_joinRows_from rows v vs (fun l hl => hne l (List.mem_cons_of_mem _ hl)) hch).1

/-- The premise is met by rows with hyphenated words. -/
example : NoChain [["the".toList, "exam-".toList], ["ple".toList, "of-".toList], ["ten".toList]] ∧
    (joinRows [["the".toList, "exam-".toList], ["ple".toList, "of-".toList], ["ten".toList]]).flatten = ["the".toList, "example".toList, "often".toList] := by
  have h : NoChain [["the".toList, "exam-".toList], ["ple".toList, "of-".toList], ["ten".toList]] := by
    intro a w v l' b h _
    have hlen := congrArg List.length h
    have ha : a = [] := by
      simp at hlen
      exact List.eq_nil_of_length_eq_zero (by omega)
    subst ha
    simp at h
  exact ⟨h, by decide⟩

end Verif.Props
