import Verif.Props.PipelineTrace
import Verif.Spec.Wiring

/-!
# C69: the text lines of the finished document
-/

namespace Verif.Props

open Verif.Math Verif.Elements Verif.Spec Verif.Words Verif.TextLines Verif.Pipeline Verif.Counter

/-! ## The lines of a page and of a segment -/

/-- The page with position `k` after text line detection: its lines are a part of the lines of the document. -/
theorem wi_linesPages {lib : Pipeline.Lib} {acw : ℚ} : ∀ {ps : List Page} {n : ℕ} {ps' : List Page} {tls : List TextLine},
    linesPages lib acw n ps = .ok (ps', tls) → ∀ (k : ℕ) (p' : Page), ps'[k]? = some p' → ∃ p pre t1 post,
      ps[k]? = some p ∧ tls = pre ++ setHierarchy acw (n + pre.length) t1 ++ post ∧
      linesOfSegments lib acw p.words (n + pre.length) p.segments = .ok (p'.segments, t1) ∧ p' = { p with segments := p'.segments } := by
  intro ps
  induction ps with
  | nil => intro n ps' tls h k p' hk; simp only [linesPages, Outcome.ok.injEq, Prod.mk.injEq] at h; rw [← h.1] at hk; simp at hk
  | cons p ps ih =>
    intro n ps' tls h k p' hk
    rw [linesPages] at h
    cases hs : linesOfSegments lib acw p.words n p.segments with
    | throw m => rw [hs] at h; cases h
    | ub m => rw [hs] at h; cases h
    | ok r =>
      rw [hs] at h
      simp only [Outcome.bind] at h
      cases hr : linesPages lib acw (n + r.2.length) ps with
      | throw m => rw [hr] at h; cases h
      | ub m => rw [hr] at h; cases h
      | ok r' =>
        rw [hr] at h
        simp only [Outcome.ok.injEq, Prod.mk.injEq] at h
        obtain ⟨rfl, rfl⟩ := h
        cases k with
        | zero =>
          simp only [List.getElem?_cons_zero, Option.some.injEq] at hk
          subst hk
          exact ⟨p, [], r.2, r'.2, rfl, by simp, by simpa using hs, rfl⟩
        | succ k =>
          simp only [List.getElem?_cons_succ] at hk
          obtain ⟨q, pre, t1, post, h1, h2, h3, h4⟩ := ih hr k p' hk
          have hlen : (setHierarchy acw n r.2).length = r.2.length := by simp [setHierarchy]
          refine ⟨q, setHierarchy acw n r.2 ++ pre, t1, post, by simpa using h1, ?_, ?_, h4⟩
          · rw [List.length_append, hlen, ← Nat.add_assoc, h2]; simp
          · rw [List.length_append, hlen, ← Nat.add_assoc]; exact h3

theorem wi_linesOfSegments {lib : Pipeline.Lib} {acw : ℚ} {page : List Word} : ∀ {ss : List Segment} {n : ℕ} {ss' : List Segment} {tls : List TextLine},
    linesOfSegments lib acw page n ss = .ok (ss', tls) → ∀ s' ∈ ss', ∃ s ∈ ss, ∃ pre ls post,
      tls = pre ++ ls ++ post ∧ linesOfSegment lib acw page (n + pre.length) s = .ok (s', ls) := by
  intro ss
  induction ss with
  | nil => intro n ss' tls h s' hs'; simp only [linesOfSegments, Outcome.ok.injEq, Prod.mk.injEq] at h; rw [← h.1] at hs'; simp at hs'
  | cons s ss ih =>
    intro n ss' tls h s' hs'
    rw [linesOfSegments] at h
    cases hs : linesOfSegment lib acw page n s with
    | throw m => rw [hs] at h; cases h
    | ub m => rw [hs] at h; cases h
    | ok r =>
      rw [hs] at h
      simp only [Outcome.bind] at h
      cases hr : linesOfSegments lib acw page (n + r.2.length) ss with
      | throw m => rw [hr] at h; cases h
      | ub m => rw [hr] at h; cases h
      | ok r' =>
        rw [hr] at h
        simp only [Outcome.ok.injEq, Prod.mk.injEq] at h
        obtain ⟨rfl, rfl⟩ := h
        rcases List.mem_cons.mp hs' with rfl | hs'
        · exact ⟨s, by simp, [], r.2, r'.2, by simp, by simpa using hs⟩
        · obtain ⟨x, hx, pre, ls, post, h1, h2⟩ := ih hr s' hs'
          refine ⟨x, by simp [hx], r.2 ++ pre, ls, post, by rw [h1]; simp, ?_⟩
          rw [List.length_append, ← Nat.add_assoc]; exact h2

/-- A stretch of the lines of a document. -/
def Stretch (d : List TextLine) (n : ℕ) (ls : List TextLine) : Prop := ∃ pre post, d = pre ++ ls ++ post ∧ pre.length = n

theorem Stretch.get {d : List TextLine} {n : ℕ} {ls : List TextLine} (h : Stretch d n ls) {i : ℕ} (hi : i < ls.length) :
    d[n + i]? = ls[i]? := by
  obtain ⟨pre, post, rfl, rfl⟩ := h
  rw [List.append_assoc, List.getElem?_append_right (by omega), Nat.add_sub_cancel_left, List.getElem?_append_left hi]

/-- What a stage that comes later keeps of a line. -/
structure LaterLine (l l' : TextLine) : Prop where
  pos : l'.line.pos = l.line.pos
  prev : l'.prevLine = l.prevLine
  next : l'.nextLine = l.nextLine
  link : l'.link = l.link
  seg : l'.seg = l.seg

/-- What is kept of a line when the hierarchy is set. -/
theorem wi_setHierarchy (acw : ℚ) (k : ℕ) (ls : List TextLine) (i : ℕ) (l : TextLine) (h : ls[i]? = some l) :
    (setHierarchy acw k ls)[i]? = some { l with
      link := Link.shift k (computeTextLineHierarchy (fun i => ((ls[i]?).map fun l => l.line.pos).getD {}) acw ls.length i) } := by
  unfold setHierarchy
  simp only [List.getElem?_mapIdx, h, Option.map_some]

/-! ## Links -/

theorem wi_linkGroups_refs (gs : List (List Line)) : ∀ (n i : ℕ) (x : Linked), (linkGroups n gs)[i]? = some x →
    (x.prevLine = none ∨ (0 < i ∧ x.prevLine = some (n + i - 1))) ∧
    (x.nextLine = none ∨ (i + 1 < gs.flatten.length ∧ x.nextLine = some (n + i + 1))) := by
  induction gs with
  | nil => intro n i x h; simp [linkGroups] at h
  | cons g gs ih =>
    intro n i x h
    rw [linkGroups] at h
    have hl : (linkLines n g).length = g.length := by simp [linkLines]
    rw [List.flatten_cons, List.length_append]
    by_cases hi : i < g.length
    · rw [List.getElem?_append_left (by omega)] at h
      unfold linkLines at h
      rw [List.getElem?_mapIdx, List.getElem?_eq_getElem hi] at h
      simp only [Option.map_some, Option.some.injEq] at h
      subst h
      refine ⟨?_, ?_⟩
      · by_cases h0 : i > 0
        · right; exact ⟨h0, by simp [h0]⟩
        · left; simp [h0]
      · by_cases h0 : i < g.length - 1
        · right; exact ⟨by omega, by simp [h0]⟩
        · left; simp [h0]
    · rw [List.getElem?_append_right (by omega), hl] at h
      obtain ⟨h1, h2⟩ := ih (n + g.length) (i - g.length) x h
      refine ⟨?_, ?_⟩
      · rcases h1 with h1 | ⟨h1, h1'⟩
        · exact Or.inl h1
        · right; refine ⟨by omega, ?_⟩; rw [h1']; congr 1; omega
      · rcases h2 with h2 | ⟨h2, h2'⟩
        · exact Or.inl h2
        · right; refine ⟨by omega, ?_⟩; rw [h2']; congr 1; omega

/-- The lines of a single group are all linked. -/
theorem wi_linkGroups_one (n : ℕ) (gs : List (List Line)) (hg : gs.length ≤ 1) (i : ℕ) (x y : Linked)
    (hx : (linkGroups n gs)[i]? = some x) (hy : (linkGroups n gs)[i + 1]? = some y) :
    x.nextLine = some (n + i + 1) ∧ y.prevLine = some (n + i) := by
  match gs, hg with
  | [], _ => simp [linkGroups] at hx
  | [g], _ =>
    simp only [linkGroups, List.append_nil, linkLines, List.getElem?_mapIdx, Option.map_eq_some_iff] at hx hy
    obtain ⟨a, ha, rfl⟩ := hx
    obtain ⟨b, hb, rfl⟩ := hy
    have := (List.getElem?_eq_some_iff.mp hb).1
    refine ⟨?_, ?_⟩
    · simp only; rw [if_pos (by omega)]
    · simp only; rw [if_pos (by omega)]; congr 1

theorem wi_rotationGroups_length {lib : LineLib} {acw : ℚ} : ∀ {cs : List (ℤ × List (ℚ × List Word))} {gs : List (List Line)},
    rotationGroups lib acw cs = .ok gs → gs.length = cs.length := by
  intro cs
  induction cs with
  | nil => intro gs h; simp only [rotationGroups, Outcome.ok.injEq] at h; subst h; rfl
  | cons c cs ih =>
    intro gs h
    rw [rotationGroups] at h
    cases h1 : linesOfRotation lib acw c.1 c.2 with
    | throw m => rw [h1] at h; cases h
    | ub m => rw [h1] at h; cases h
    | ok ls =>
      rw [h1] at h
      simp only [Outcome.bind] at h
      cases h2 : rotationGroups lib acw cs with
      | throw m => rw [h2] at h; cases h
      | ub m => rw [h2] at h; cases h
      | ok r =>
        rw [h2] at h
        simp only [Outcome.ok.injEq] at h
        subst h
        simp [ih h2]

/-- If the words of a segment have one rotation, there is at most one group. -/
theorem wi_segmentLines_one {lib : LineLib} {acw : ℚ} {page words : List Word} {gs : List (List Line)}
    (h : segmentLines lib acw page words = .ok gs) (r : ℤ) (hr : ∀ w ∈ words, w.pos.rotation = r) : gs.length ≤ 1 := by
  rw [wi_rotationGroups_length h, (lib.iterPerm _ _).length_eq]
  have : ∀ (ws : List Word) (cl : List (ℤ × List (ℚ × List Word))), (∀ w ∈ ws, w.pos.rotation = r) →
      (cl = [] ∨ ∃ v, cl = [(r, v)]) → let z := ws.foldl (fun cl w =>
        if w.partOf.isSome then cl else addCluster w.pos.rotation w.pos.getRotLowerY (wordGroup page w) cl) cl
      z = [] ∨ ∃ v, z = [(r, v)] := by
    intro ws
    induction ws with
    | nil => intro cl _ h; exact h
    | cons w ws ih =>
      intro cl hw hcl
      rw [List.foldl_cons]
      refine ih _ (fun x hx => hw x (by simp [hx])) ?_
      split
      · exact hcl
      · right
        rw [hw w (by simp)]
        rcases hcl with rfl | ⟨v, rfl⟩
        · exact ⟨_, rfl⟩
        · exact ⟨addInner w.pos.getRotLowerY (wordGroup page w) v, by simp [addCluster]⟩
  rcases this words [] hr (Or.inl rfl) with h | ⟨v, h⟩
  · unfold cluster; rw [h]; simp
  · unfold cluster; rw [h]; simp

/-- The lines of a segment after text line detection. -/
theorem wi_linesOfSegment {lib : Pipeline.Lib} {acw : ℚ} {page : List Word} {n : ℕ} {s s' : Segment} {ls : List TextLine} (hl : s.lines = [])
    (h : linesOfSegment lib acw page n s = .ok (s', ls)) :
    s'.lines = List.range' n ls.length ∧ s'.elements = s.elements ∧ s'.pos = s.pos ∧
    (∀ (i : ℕ) (l : TextLine), ls[i]? = some l → l.seg = s'.seg ∧ (l.prevLine = none ∨ (0 < i ∧ l.prevLine = some (n + i - 1))) ∧
      (l.nextLine = none ∨ (i + 1 < ls.length ∧ l.nextLine = some (n + i + 1)))) ∧
    (∀ (i : ℕ) (l l' : TextLine), ls[i]? = some l → ls[i + 1]? = some l' →
      (l.nextLine = some (n + i + 1) ∧ l'.prevLine = some (n + i)) ∨ (l.nextLine = none ∧ l'.prevLine = none)) ∧
    (∀ r, (∀ w ∈ s.words page, w.pos.rotation = r) → ∀ (i : ℕ) (l l' : TextLine), ls[i]? = some l → ls[i + 1]? = some l' →
      l.nextLine = some (n + i + 1) ∧ l'.prevLine = some (n + i)) ∧
    (ls ≠ [] → ls.length < 2 ^ 32 → ∃ r m, s'.trim = (s.pos.leftX, s.pos.upperY, r, s.pos.lowerY) ∧
      IsMostFrequent (ls.map fun l => roundTo l.line.pos.getRotRightX 0) m ∧
      r = if 1 / 2 - tol ≤ (occurrences (ls.map fun l => roundTo l.line.pos.getRotRightX 0) m : ℚ) / ls.length then m else s.pos.rightX) := by
  unfold linesOfSegment at h
  split at h
  · simp only [Outcome.ok.injEq, Prod.mk.injEq] at h
    obtain ⟨rfl, rfl⟩ := h
    exact ⟨by simp [hl], rfl, rfl, by simp, by simp, by simp, fun hc => absurd rfl hc⟩
  · cases hg : segmentLines lib.lines acw page (s.words page) with
    | throw m => rw [hg] at h; cases h
    | ub m => rw [hg] at h; cases h
    | ok gs =>
      rw [hg] at h
      simp only [Outcome.bind] at h
      cases ht : computeTrimBox lib.lines.hash s.pos (gs.flatten.map (·.pos)) with
      | throw m => rw [ht] at h; cases h
      | ub m => rw [ht] at h; cases h
      | ok trim =>
        rw [ht] at h
        simp only [Outcome.ok.injEq, Prod.mk.injEq] at h
        obtain ⟨rfl, rfl⟩ := h
        obtain ⟨e1, e2, e3⟩ := c26_links n gs
        have hlen : (linkGroups n gs).length = gs.flatten.length := by
          have := congrArg List.length e1; simpa using this
        have hrank : ∀ (i : ℕ) (x : Linked), (linkGroups n gs)[i]? = some x → x.rank = n + i := by
          intro i x hx
          have := congrArg (fun l => l[i]?) e2
          simp only [List.getElem?_map, hx, Option.map_some] at this
          have hi := (List.getElem?_eq_some_iff.mp hx).1
          rw [List.getElem?_range' (by omega)] at this
          simpa using this
        refine ⟨?_, rfl, rfl, ?_, ?_, ?_, ?_⟩
        · simp only [hl, List.nil_append, List.length_map]
          rw [e2, hlen]
        · intro i l hi
          simp only [List.getElem?_map, Option.map_eq_some_iff] at hi
          obtain ⟨x, hx, rfl⟩ := hi
          have := wi_linkGroups_refs gs n i x hx
          rw [List.length_map, hlen]
          exact ⟨rfl, this⟩
        · intro i l l' hi hi'
          simp only [List.getElem?_map, Option.map_eq_some_iff] at hi hi'
          obtain ⟨x, hx, rfl⟩ := hi
          obtain ⟨y, hy, rfl⟩ := hi'
          have := e3 i x y hx hy
          rw [hrank _ _ hx, hrank _ _ hy] at this
          exact this
        · intro r hr i l l' hi hi'
          simp only [List.getElem?_map, Option.map_eq_some_iff] at hi hi'
          obtain ⟨x, hx, rfl⟩ := hi
          obtain ⟨y, hy, rfl⟩ := hi'
          exact wi_linkGroups_one n gs (wi_segmentLines_one hg r hr) i x y hx hy
        · intro hne hlt
          obtain ⟨r, g1, g2, g3⟩ := c29_trim_box lib.lines.hash s.pos (gs.flatten.map (·.pos)) (by
            simp only [List.length_map] at hlt ⊢; omega)
          rw [ht] at g1
          simp only [Outcome.ok.injEq] at g1
          have hb : ((linkGroups n gs).map fun l => ({ line := l.line, prevLine := l.prevLine, nextLine := l.nextLine, seg := Segment.seg { s with trim := trim, lines := s.lines ++ (linkGroups n gs).map (·.rank) } } : TextLine)).map
              (fun l => roundTo l.line.pos.getRotRightX 0) = (gs.flatten.map (·.pos)).map fun b => roundTo b.getRotRightX 0 := by
            rw [← e1]; simp [Function.comp_def]
          have hne' : gs.flatten.map (·.pos) ≠ [] := by
            intro hc
            rw [List.map_eq_nil_iff] at hc
            apply hne
            rw [List.map_eq_nil_iff, ← List.length_eq_zero_iff, hlen, hc]; rfl
          obtain ⟨m, q1, q2⟩ := g3 hne'
          refine ⟨r, m, g1, ?_, ?_⟩
          · rw [hb]; exact q1
          · rw [hb, q2]
            simp only [List.length_map, hlen]

end Verif.Props
