import Verif.Props.WiringRun

/-!
# C69: text lines and hierarchy in the finished document
-/

namespace Verif.Props

open Verif.Math Verif.Elements Verif.Spec Verif.Words Verif.TextLines Verif.Pipeline Verif.Counter Verif.Statistics
open Verif.ReadingOrder (RElem Role)
open Verif.Cli (Stage StageConfig Env Config)

/-! ## Positions -/

theorem wi_mapPages {f : Page → Outcome Page} : ∀ {ps ps' : List Page}, mapPages f ps = .ok ps' →
    ps'.length = ps.length ∧ ∀ (k : ℕ) (p' : Page), ps'[k]? = some p' → ∃ p, ps[k]? = some p ∧ f p = .ok p' := by
  intro ps
  induction ps with
  | nil => intro ps' h; rw [mapPages] at h; cases h; simp
  | cons p ps ih =>
    intro ps' h
    rw [mapPages] at h
    obtain ⟨q, h1, h⟩ := wi_bind h
    obtain ⟨qs, h2, h⟩ := wi_bind h
    cases h
    obtain ⟨i1, i2⟩ := ih h2
    refine ⟨by simp [i1], ?_⟩
    intro k p' hk
    cases k with
    | zero => simp only [List.getElem?_cons_zero, Option.some.injEq] at hk; subst hk; exact ⟨p, rfl, h1⟩
    | succ k => simpa using i2 k p' (by simpa using hk)

/-- The number of blocks on the pages before position `k`. -/
def blocksBefore (ps : List Page) (k : ℕ) : ℕ := ((ps.take k).flatMap (·.blocks)).length

theorem wi_assignRoles : ∀ (ps : List Page) (rs : List Role), (assignRoles ps rs).length = ps.length ∧ ∀ (k : ℕ) (p' : Page), (assignRoles ps rs)[k]? = some p' →
    ∃ p, ps[k]? = some p ∧ p' = { p with blocks := List.zipWith (fun b r => { b with role := r }) p.blocks ((rs.drop (blocksBefore ps k)).take p.blocks.length) } := by
  intro ps
  induction ps with
  | nil => intro rs; simp [assignRoles]
  | cons p ps ih =>
    intro rs
    obtain ⟨i1, i2⟩ := ih (rs.drop p.blocks.length)
    refine ⟨by simp [assignRoles, i1], ?_⟩
    intro k p' hk
    rw [assignRoles] at hk
    cases k with
    | zero =>
      simp only [List.getElem?_cons_zero, Option.some.injEq] at hk
      exact ⟨p, rfl, by rw [← hk]; simp [blocksBefore]⟩
    | succ k =>
      obtain ⟨q, h1, h2⟩ := i2 k p' (by simpa using hk)
      refine ⟨q, by simpa using h1, ?_⟩
      rw [h2, List.drop_drop]
      simp [blocksBefore, Nat.add_comm]

/-- The lines of the segments are numbered consecutively. -/
theorem wi_numbers {lib : Pipeline.Lib} {acw : ℚ} {page : List Word} : ∀ {ss : List Segment} {n : ℕ} {ss' : List Segment} {tls : List TextLine},
    (∀ s ∈ ss, s.lines = []) → linesOfSegments lib acw page n ss = .ok (ss', tls) → ss'.flatMap (·.lines) = List.range' n tls.length := by
  intro ss
  induction ss with
  | nil => intro n ss' tls _ h; rw [linesOfSegments] at h; cases h; rfl
  | cons s ss ih =>
    intro n ss' tls hs h
    rw [linesOfSegments] at h
    obtain ⟨r, h1, h⟩ := wi_bind h
    obtain ⟨r', h2, h⟩ := wi_bind h
    cases h
    rw [List.flatMap_cons, ih (fun x hx => hs x (by simp [hx])) h2, (wi_linesOfSegment (hs s (by simp)) h1).1, List.length_append]
    rw [List.range'_append_1]

theorem wi_segmentsKept {lib : Pipeline.Lib} {acw : ℚ} {page : List Word} : ∀ {ss : List Segment} {n : ℕ} {ss' : List Segment} {tls : List TextLine},
    (∀ s ∈ ss, s.lines = []) → linesOfSegments lib acw page n ss = .ok (ss', tls) → ss'.map (fun s => (s.elements, s.pos)) = ss.map fun s => (s.elements, s.pos) := by
  intro ss
  induction ss with
  | nil => intro n ss' tls _ h; rw [linesOfSegments] at h; cases h; rfl
  | cons s ss ih =>
    intro n ss' tls hs h
    rw [linesOfSegments] at h
    obtain ⟨r, h1, h⟩ := wi_bind h
    obtain ⟨r', h2, h⟩ := wi_bind h
    cases h
    have := wi_linesOfSegment (hs s (by simp)) h1
    rw [List.map_cons, ih (fun x hx => hs x (by simp [hx])) h2, List.map_cons, this.2.1, this.2.2.1]

/-! ## The pages of the finished document -/

/-- What the stages before leave of a page of the finished document. -/
structure FinishedPage (lib : Pipeline.Lib) (d0 d' : Document) (s4 : Stats) (ps2 ps3 ps6 : List Page) (bss : List (List TextBlocks.Block)) (rs : List Role) (k : ℕ) (p' p0 p2 p3 p6 : Page)
    (bs : List TextBlocks.Block) : Prop where
  at0 : d0.pages[k]? = some p0
  at2 : ps2[k]? = some p2
  at3 : ps3[k]? = some p3
  at6 : ps6[k]? = some p6
  atB : bss[k]? = some bs
  marks : Diacritics.processPage lib.compose p0.characters = .ok p2.characters
  only2 : p2 = { p0 with characters := p2.characters }
  words : wordsPage lib p2 = .ok p3
  only3 : p3 = { p2 with words := p3.words }
  only6 : p6 = { p3 with segments := p6.segments }
  segments : p6.segments.map (fun s => (s.elements, s.pos)) = (segmentPage lib s4 p3).segments.map fun s => (s.elements, s.pos)
  page : p' = { p6 with
    textLines := p'.blocks.flatMap (·.block.lines)
    blocks := (orderPage lib d'.stats { p6 with
      textLines := p6.segments.flatMap (·.lines)
      blocks := List.zipWith (fun b r => { b with role := r }) (bs.map fun b => (⟨b, lib.uninitialised⟩ : TextBlock))
        ((rs.drop (blocksBefore (blocksAdded lib ps6 bss) k)).take bs.length) }).blocks }

theorem wi_linesPages_length {lib : Pipeline.Lib} {acw : ℚ} : ∀ {ps : List Page} {n : ℕ} {r : List Page × List TextLine}, linesPages lib acw n ps = .ok r → r.1.length = ps.length := by
  intro ps
  induction ps with
  | nil => intro n r h; rw [linesPages] at h; cases h; rfl
  | cons p ps ih =>
    intro n r h
    rw [linesPages] at h
    obtain ⟨a, _, h⟩ := wi_bind h
    obtain ⟨b, h2, h⟩ := wi_bind h
    cases h
    simp [ih h2]

theorem wi_finished {lib : Pipeline.Lib} {n : ℕ} {d0 d' : Document} {s1 s4 : Stats} {ps2 ps3 ps6 : List Page} {ls6 : List TextLine}
    {bst : TextBlocks.State} {bss : List (List TextBlocks.Block)} {rs : List Role} (hp : ParsedDoc n d0)
    (h : WholeRun lib d0 d' s1 s4 ps2 ps3 ps6 ls6 bst bss rs) (k : ℕ) (p' : Page) (hk : d'.pages[k]? = some p') :
    ∃ p0 p2 p3 p6 bs, FinishedPage lib d0 d' s4 ps2 ps3 ps6 bss rs k p' p0 p2 p3 p6 bs := by
  rw [h.pages] at hk
  simp only [List.getElem?_map, Option.map_eq_some_iff] at hk
  obtain ⟨q2, ⟨q1, hq1, rfl⟩, rfl⟩ := hk
  obtain ⟨q0, hq0, e1⟩ := (wi_assignRoles _ _).2 k q1 hq1
  unfold blocksAdded at hq0
  rw [List.getElem?_zipWith] at hq0
  cases h6 : ps6[k]? with
  | none => rw [h6] at hq0; simp at hq0
  | some p6 =>
    cases hb : bss[k]? with
    | none => rw [h6, hb] at hq0; simp at hq0
    | some bs =>
      rw [h6, hb] at hq0
      simp only [Option.some.injEq] at hq0
      obtain ⟨p5, pre, t1, post, a1, a2, a3, a4⟩ := wi_linesPages h.lines k p6 h6
      rw [List.getElem?_map, Option.map_eq_some_iff] at a1
      obtain ⟨p3, a1, rfl⟩ := a1
      obtain ⟨p2, c1, c2⟩ := (wi_mapPages h.words).2 k p3 a1
      obtain ⟨p0, b1, b2⟩ := (wi_mapPages h.marks).2 k p2 c1
      have c2' := c2
      unfold wordsPage at c2'
      obtain ⟨w, w1, w2⟩ := wi_bind c2'
      replace w2 := wi_ok w2
      obtain ⟨cs, v1, v2⟩ := wi_bind b2
      replace v2 := wi_ok v2
      have hs3 : p3.segments = [] := by rw [w2, v2]; exact hp.segments p0 (List.mem_of_getElem? b1)
      have hb3 : p3.blocks = [] := by rw [w2, v2]; exact hp.blocks p0 (List.mem_of_getElem? b1)
      have hl5 : ∀ s ∈ (segmentPage lib s4 p3).segments, s.lines = [] := by
        intro s hs
        unfold segmentPage at hs
        simp only [hs3, List.nil_append, List.mem_map] at hs
        obtain ⟨g, _, rfl⟩ := hs
        rfl
      have hb6 : p6.blocks = [] := by rw [a4]; exact hb3
      refine ⟨p0, p2, p3, p6, bs, b1, c1, a1, h6, hb, ?_, ?_, c2, ?_, ?_, wi_segmentsKept hl5 a3, ?_⟩
      · rw [v1, v2]
      · rw [v2]
      · rw [w2]
      · rw [a4]; rfl
      · subst hq0
        rw [e1]
        simp only [hb6, List.nil_append, List.length_map, orderPage, orderElems]

/-- The lines of a page. -/
theorem wi_pageLines {lib : Pipeline.Lib} {n : ℕ} {d0 d' : Document} {s1 s4 : Stats} {ps2 ps3 ps6 : List Page} {ls6 : List TextLine}
    {bst : TextBlocks.State} {bss : List (List TextBlocks.Block)} {rs : List Role} (hp : ParsedDoc n d0)
    (h : WholeRun lib d0 d' s1 s4 ps2 ps3 ps6 ls6 bst bss rs) {k : ℕ} {p' p0 p2 p3 p6 : Page} {bs : List TextBlocks.Block}
    (hf : FinishedPage lib d0 d' s4 ps2 ps3 ps6 bss rs k p' p0 p2 p3 p6 bs) :
    ∃ m t1, (∀ s ∈ (segmentPage lib s4 p3).segments, s.lines = []) ∧
      linesOfSegments lib s4.avgCharWidth p3.words m (segmentPage lib s4 p3).segments = .ok (p'.segments, t1) ∧ lineNumbers p' = List.range' m t1.length ∧
      ∀ (i : ℕ) (l : TextLine), t1[i]? = some l → d'.lines[m + i]? = some { l with
        line := (Scripts.scriptLine s4.mostFreqFontSize l.line).1
        base := (Scripts.scriptLine s4.mostFreqFontSize l.line).2
        link := Link.shift m (computeTextLineHierarchy (fun i => ((t1[i]?).map fun l => l.line.pos).getD {}) s4.avgCharWidth t1.length i) } := by
  obtain ⟨p5, pre, t1, post, a1, a2, a3, a4⟩ := wi_linesPages h.lines k p6 hf.at6
  rw [List.getElem?_map, hf.at3] at a1
  simp only [Option.map_some, Option.some.injEq] at a1
  subst a1
  have hseg : p'.segments = p6.segments := by rw [hf.page]
  have hs3 : p3.segments = [] := by rw [hf.only3, hf.only2]; exact hp.segments p0 (List.mem_of_getElem? hf.at0)
  have hl5 : ∀ s ∈ (segmentPage lib s4 p3).segments, s.lines = [] := by
    intro s hs
    unfold segmentPage at hs
    simp only [hs3, List.nil_append, List.mem_map] at hs
    obtain ⟨g, _, rfl⟩ := hs
    rfl
  rw [Nat.zero_add] at a2 a3
  refine ⟨pre.length, t1, hl5, by rw [hseg]; exact a3, ?_, ?_⟩
  · unfold lineNumbers; rw [hseg]; exact wi_numbers hl5 a3
  · intro i l hi
    rw [h.scripts, List.getElem?_map, a2]
    have hlt := (List.getElem?_eq_some_iff.mp hi).1
    have hlen : (setHierarchy s4.avgCharWidth pre.length t1).length = t1.length := by simp [setHierarchy]
    rw [List.append_assoc, List.getElem?_append_right (by omega), Nat.add_sub_cancel_left, List.getElem?_append_left (by omega),
      wi_setHierarchy _ _ _ _ _ hi]
    rfl

end Verif.Props
