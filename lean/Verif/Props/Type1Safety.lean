import Verif.Props.Type1Glyph

/-!
# Safety of the charstring interpreter (C49)
-/

namespace Verif.Props

open Verif Verif.Type1 Verif.Spec.Type1

/-! ### Termination -/

/-- What one iteration does to the activation records. -/
theorem step_frames (subrs : Subrs) {cs : List ℕ} {t : ℕ} {rest : List (List ℕ × ℕ)} {st : St}
    {c' : Cfg} (h : step subrs ⟨(cs, t) :: rest, st⟩ = .ok c') :
    c'.frames = rest ∨ t < cs.length ∧ ∃ t', t < t' ∧ (c'.frames = (cs, t') :: rest ∨
      ∃ i sub, subrs.at? i = some sub ∧ c'.frames = (sub, 0) :: (cs, t') :: rest) := by
  unfold step at h
  simp only at h
  by_cases ht : cs.length ≤ t
  · rw [if_pos ht] at h; cases h; exact Or.inl rfl
  rw [if_neg ht] at h
  right
  refine ⟨by omega, ?_⟩
  split at h
  · split at h
    · split at h
      · cases h; exact ⟨t + 1, by omega, Or.inl rfl⟩
      · split at h
        · cases h; exact ⟨t + 1, by omega, Or.inl rfl⟩
        · rename_i hat
          cases h; exact ⟨t + 1, by omega, Or.inr ⟨_, _, hat, rfl⟩⟩
    · split at h
      · obtain ⟨b2, _, h⟩ := bind_ok h
        obtain ⟨s, h2, h⟩ := bind_ok h
        cases h; exact ⟨t + 2, by omega, Or.inl rfl⟩
      · obtain ⟨s, h2, h⟩ := bind_ok h
        cases h; exact ⟨t + 1, by omega, Or.inl rfl⟩
  · split at h
    · cases h; exact ⟨t + 1, by omega, Or.inl rfl⟩
    · split at h
      · obtain ⟨w, _, h⟩ := bind_ok h
        cases h; exact ⟨t + 2, by omega, Or.inl rfl⟩
      · split at h
        · obtain ⟨w, _, h⟩ := bind_ok h
          cases h; exact ⟨t + 2, by omega, Or.inl rfl⟩
        · obtain ⟨_, _, h⟩ := bind_ok h
          obtain ⟨_, _, h⟩ := bind_ok h
          obtain ⟨_, _, h⟩ := bind_ok h
          obtain ⟨_, _, h⟩ := bind_ok h
          cases h; exact ⟨t + 5, by omega, Or.inl rfl⟩

/-- The work left for the activation records when calls nest at most `d` deep and subroutines have
at most `L` bytes. -/
def work (L d : ℕ) : List (List ℕ × ℕ) → ℕ
  | [] => 0
  | f :: rest => (f.1.length - f.2 + 1) * (L + 2) ^ (d - rest.length) + work L d rest

theorem work_step (subrs : Subrs) (L d : ℕ) (hL : ∀ i sub, subrs.at? i = some sub → sub.length ≤ L)
    {c c' : Cfg} (h : step subrs c = .ok c') (hne : c.frames ≠ []) (hd' : c'.frames.length ≤ d) :
    work L d c'.frames < work L d c.frames := by
  obtain ⟨frames, st⟩ := c
  cases frames with
  | nil => exact absurd rfl hne
  | cons f rest =>
    obtain ⟨cs, t⟩ := f
    have hpos : ∀ k, 0 < (L + 2) ^ k := fun k => Nat.pow_pos (by omega)
    rcases step_frames subrs h with h1 | ⟨ht, t', htt, h1 | ⟨i, sub, hat, h1⟩⟩
    · rw [h1]
      simp only [work]
      have := Nat.mul_pos (show 0 < cs.length - t + 1 by omega) (hpos (d - rest.length))
      omega
    · rw [h1]
      simp only [work]
      have : (cs.length - t' + 1) * (L + 2) ^ (d - rest.length) <
          (cs.length - t + 1) * (L + 2) ^ (d - rest.length) :=
        Nat.mul_lt_mul_of_pos_right (by omega) (hpos _)
      omega
    · rw [h1] at hd' ⊢
      simp only [work, List.length_cons] at hd' ⊢
      have hsub := hL i sub hat
      obtain ⟨k, hk⟩ : ∃ k, d - rest.length = k + 1 := ⟨d - rest.length - 1, by omega⟩
      have hk2 : d - (rest.length + 1) = k := by omega
      rw [hk, hk2]
      have h2 : (sub.length - 0 + 1) * (L + 2) ^ k < (L + 2) ^ (k + 1) := by
        rw [pow_succ, Nat.mul_comm ((L + 2) ^ k)]
        exact Nat.mul_lt_mul_of_pos_right (by omega) (hpos _)
      have h3 : (cs.length - t' + 1) * (L + 2) ^ (k + 1) + (L + 2) ^ (k + 1) ≤
          (cs.length - t + 1) * (L + 2) ^ (k + 1) := by
        rw [← Nat.succ_mul]
        exact Nat.mul_le_mul_right _ (by omega)
      omega

theorem not_throw_chk (v : ℤ) : (chk v).isThrow = false := by
  unfold chk; split <;> rfl

theorem not_throw_bind {α β : Type} {x : Outcome α} {f : α → Outcome β}
    (h1 : x.isThrow = false) (h2 : ∀ a, x = .ok a → (f a).isThrow = false) :
    (x.bind f).isThrow = false := by
  cases x with
  | ok a => exact h2 a rfl
  | throw m => simp [Outcome.isThrow] at h1
  | ub m => rfl

theorem not_throw_rd (cs : List ℕ) (i : ℕ) : (rd cs i).isThrow = false := by
  unfold rd; split
  · rfl
  · split <;> rfl

theorem not_throw_moveBy (st : St) (a b : ℤ) : (st.moveBy a b).isThrow = false :=
  not_throw_bind (not_throw_chk _) fun _ _ => not_throw_bind (not_throw_chk _) fun _ _ => rfl

theorem not_throw_moveX (st : St) (a : ℤ) : (st.moveX a).isThrow = false :=
  not_throw_bind (not_throw_chk _) fun _ _ => rfl

theorem not_throw_moveY (st : St) (a : ℤ) : (st.moveY a).isThrow = false :=
  not_throw_bind (not_throw_chk _) fun _ _ => rfl

theorem not_throw_curve (st : St) (a b c d e f : ℤ) : (st.curve a b c d e f).isThrow = false :=
  not_throw_bind (not_throw_chk _) fun _ _ => not_throw_bind (not_throw_chk _) fun _ _ =>
  not_throw_bind (not_throw_chk _) fun _ _ => not_throw_bind (not_throw_chk _) fun _ _ =>
  not_throw_bind (not_throw_chk _) fun _ _ => not_throw_bind (not_throw_chk _) fun _ _ => rfl

theorem not_throw_op (b : ℕ) (st : St) : (op b st).isThrow = false := by
  unfold op
  split <;> first | rfl | apply not_throw_moveY | apply not_throw_moveX | apply not_throw_moveBy |
    apply not_throw_curve

theorem not_throw_moveArgs (k : ℕ) : ∀ a b, (moveArgs k a b).isThrow = false := by
  induction k with
  | zero => intro a b; rfl
  | succ k ih =>
    intro a b
    cases a with
    | nil => rfl
    | cons x a => exact ih a (x :: b)

theorem not_throw_otherSubr (o n : ℤ) (st : St) : (otherSubr o n st).isThrow = false := by
  unfold otherSubr
  split
  · split <;> rfl
  · split
    · rfl
    · split
      · split <;> rfl
      · exact not_throw_bind (not_throw_moveArgs _ _ _) fun _ _ => rfl

theorem not_throw_escape (b : ℕ) (st : St) : (escape b st).isThrow = false := by
  unfold escape
  split
  · rfl
  · rfl
  · rfl
  · rfl
  · split
    · rfl
    · exact not_throw_bind (not_throw_chk _) fun _ _ => rfl
  · exact not_throw_otherSubr _ _ _
  · split <;> rfl
  · rfl
  · rfl

theorem not_throw_step (subrs : Subrs) (c : Cfg) : (step subrs c).isThrow = false := by
  unfold step
  split
  · rfl
  · split
    · rfl
    · simp only
      split
      · split
        · split
          · rfl
          · split <;> rfl
        · split
          · exact not_throw_bind (not_throw_rd _ _) fun _ _ =>
              not_throw_bind (not_throw_escape _ _) fun _ _ => rfl
          · exact not_throw_bind (not_throw_op _ _) fun _ _ => rfl
      · split
        · rfl
        · split
          · exact not_throw_bind (not_throw_rd _ _) fun _ _ => rfl
          · split
            · exact not_throw_bind (not_throw_rd _ _) fun _ _ => rfl
            · exact not_throw_bind (not_throw_rd _ _) fun _ _ =>
                not_throw_bind (not_throw_rd _ _) fun _ _ =>
                not_throw_bind (not_throw_rd _ _) fun _ _ =>
                not_throw_bind (not_throw_rd _ _) fun _ _ => rfl

/-- Interpretation of the configuration `c` comes to an end: normally or with undefined behaviour. -/
def Halts (subrs : Subrs) (c : Cfg) : Prop :=
  ∃ n, (∃ st, runN subrs n c = .ok ⟨[], st⟩) ∨ (runN subrs n c).isUb = true

theorem halts_of_depth (subrs : Subrs) (L d : ℕ)
    (hL : ∀ i sub, subrs.at? i = some sub → sub.length ≤ L) :
    ∀ (k : ℕ) (c : Cfg), work L d c.frames ≤ k →
      (∀ n c', runN subrs n c = .ok c' → c'.frames.length ≤ d) → Halts subrs c := by
  intro k
  induction k with
  | zero =>
    intro c hw hd
    obtain ⟨frames, st⟩ := c
    cases frames with
    | nil => exact ⟨0, Or.inl ⟨st, rfl⟩⟩
    | cons f rest =>
      simp only [work] at hw
      have := Nat.mul_pos (show 0 < f.1.length - f.2 + 1 by omega)
        (Nat.pow_pos (n := d - rest.length) (show 0 < L + 2 by omega))
      omega
  | succ k ih =>
    intro c hw hd
    by_cases hne : c.frames = []
    · obtain ⟨frames, st⟩ := c
      simp only at hne
      subst hne
      exact ⟨0, Or.inl ⟨st, rfl⟩⟩
    · have hthrow := not_throw_step subrs c
      cases hs : step subrs c with
      | throw m => rw [hs] at hthrow; simp [Outcome.isThrow] at hthrow
      | ub m => exact ⟨1, Or.inr (by simp [runN, hs, Outcome.bind, Outcome.isUb])⟩
      | ok c' =>
        have hlen : c'.frames.length ≤ d := hd 1 c' (by simp [runN, hs, Outcome.bind])
        have hlt := work_step subrs L d hL hs hne hlen
        obtain ⟨n, hn⟩ := ih c' (by omega)
          (fun n c2 h2 => hd (n + 1) c2 (by simp only [runN, hs, Outcome.bind]; exact h2))
        exact ⟨n + 1, by simp only [runN, hs, Outcome.bind]; exact hn⟩

theorem subrs_bound (subrs : Subrs) : ∃ L, ∀ i sub, subrs.at? i = some sub → sub.length ≤ L := by
  induction subrs with
  | nil => exact ⟨0, fun i sub h => by simp [Subrs.at?] at h⟩
  | cons p ps ih =>
    obtain ⟨L, hL⟩ := ih
    refine ⟨max L p.2.length, fun i sub h => ?_⟩
    unfold Subrs.at? at h
    rw [List.find?_cons] at h
    split at h
    · simp at h; subst h; exact le_max_right _ _
    · exact le_trans (hL i sub h) (le_max_left _ _)

/-- **C49, termination.** The only way for the interpretation of a charstring not to come to an end
is unbounded recursion: if the nesting of subroutine calls stays below any fixed depth, the
interpretation ends, for all bytes and subroutines.  Partial: the recursion depth is not bounded by
the program, see `c49_endless_recursion`. -/
theorem c49_halts_partial (subrs : Subrs) (cs : List ℕ) (d : ℕ)
    (hd : ∀ n c', runN subrs n (start cs) = .ok c' → c'.frames.length ≤ d) :
    ∃ n, (∃ st, runN subrs n (start cs) = .ok ⟨[], st⟩) ∨
      (runN subrs n (start cs)).isUb = true := by
  obtain ⟨L, hL⟩ := subrs_bound subrs
  exact halts_of_depth subrs L d hL _ _ (le_refl _) hd

/-- **C49, termination.** If no subroutine contains the byte 10 (so none calls another), the
interpretation of every charstring comes to an end. -/
theorem c49_halts_leaf_subrs_partial (subrs : Subrs) (cs : List ℕ)
    (hleaf : ∀ i sub, subrs.at? i = some sub → 10 ∉ sub) :
    ∃ n, (∃ st, runN subrs n (start cs) = .ok ⟨[], st⟩) ∨
      (runN subrs n (start cs)).isUb = true := by
  have inv : ∀ (n : ℕ) (c c' : Cfg),
      (∃ f fs, c.frames = f :: fs ∧ fs.length ≤ 1 ∧ (fs.length = 1 → 10 ∉ f.1)) ∨ c.frames = [] →
      runN subrs n c = .ok c' → c'.frames.length ≤ 2 := by
    intro n
    induction n with
    | zero =>
      intro c c' hc h
      simp [runN] at h
      subst h
      rcases hc with ⟨f, fs, h1, h2, _⟩ | h1
      · rw [h1]; simp; omega
      · rw [h1]; simp
    | succ n ih =>
      intro c c' hc h
      obtain ⟨c1, hs, hr⟩ := bind_ok (by simpa [runN] using h)
      refine ih c1 c' ?_ hr
      rcases hc with ⟨f, fs, h1, h2, h3⟩ | h1
      · obtain ⟨frames, st⟩ := c
        simp only at h1
        subst h1
        obtain ⟨fcs, ft⟩ := f
        rcases step_frames subrs hs with e | ⟨ht, t', htt, e | ⟨i, sub, hat, e⟩⟩
        · rw [e]
          cases fs with
          | nil => exact Or.inr rfl
          | cons g gs =>
            left
            simp only [List.length_cons] at h2
            exact ⟨g, gs, rfl, by omega, fun h => by omega⟩
        · exact Or.inl ⟨_, fs, e, h2, h3⟩
        · cases fs with
          | nil => exact Or.inl ⟨_, _, e, by simp, fun _ => hleaf i sub hat⟩
          | cons g gs =>
            -- a call from a subroutine: impossible
            exfalso
            have hgs : gs.length = 0 := by simp only [List.length_cons] at h2; omega
            have hno : 10 ∉ fcs := h3 (by simp [hgs])
            have hb : fcs.getD ft 0 ≠ 10 := by
              intro hb
              rw [List.getD_eq_getElem _ _ ht] at hb
              exact hno (hb ▸ List.getElem_mem ht)
            have hlen : c1.frames.length = gs.length + 1 + 1 + 1 := by rw [e]; simp
            unfold step at hs
            simp only at hs
            rw [if_neg (by omega)] at hs
            split at hs
            · split at hs
              · obtain ⟨b2, _, hs⟩ := bind_ok hs
                obtain ⟨s, _, hs⟩ := bind_ok hs
                cases hs; simp at hlen
              · obtain ⟨s, _, hs⟩ := bind_ok hs
                cases hs; simp at hlen
            · split at hs
              · cases hs; simp at hlen
              · split at hs
                · obtain ⟨w, _, hs⟩ := bind_ok hs
                  cases hs; simp at hlen
                · split at hs
                  · obtain ⟨w, _, hs⟩ := bind_ok hs
                    cases hs; simp at hlen
                  · obtain ⟨_, _, hs⟩ := bind_ok hs
                    obtain ⟨_, _, hs⟩ := bind_ok hs
                    obtain ⟨_, _, hs⟩ := bind_ok hs
                    obtain ⟨_, _, hs⟩ := bind_ok hs
                    cases hs; simp at hlen
      · obtain ⟨frames, st⟩ := c
        simp only at h1
        subst h1
        simp [step] at hs
        subst hs
        exact Or.inr rfl
  exact c49_halts_partial subrs cs 2 (fun n c' h =>
    inv n (start cs) c' (Or.inl ⟨_, [], rfl, by simp, fun h => by simp at h⟩) h)

example : ∃ st, runN [(0, [149, 6, 11])] 10 (start [139, 139, 13, 139, 10]) = .ok ⟨[], st⟩ :=
  ⟨_, rfl⟩

/-- The step from `c` to `c'` calls a subroutine: `callee` is interpreted on top of `caller`. -/
def CallsFrom (c c' : Cfg) (caller callee : List ℕ) : Prop :=
  ∃ t t' rest, c.frames = (caller, t) :: rest ∧ c'.frames = (callee, 0) :: (caller, t') :: rest

/-- **C49, termination.** If the calls are not circular (the called subroutine always has a lower rank than its caller, for some ranking), the interpretation of the
charstring comes to an end, whatever its bytes are and however deep the subroutines call each other. -/
theorem c49_halts_acyclic_partial (subrs : Subrs) (cs : List ℕ) (rank : List ℕ → ℕ)
    (hacyclic : ∀ n c c', runN subrs n (start cs) = .ok c → step subrs c = .ok c' → ∀ caller callee, CallsFrom c c' caller callee → rank callee < rank caller) :
    ∃ n, (∃ st, runN subrs n (start cs) = .ok ⟨[], st⟩) ∨ (runN subrs n (start cs)).isUb = true := by
  have inv : ∀ n c, runN subrs n (start cs) = .ok c →
      (c.frames.map fun f => rank f.1).IsChain (· < ·) ∧ ∀ f ∈ c.frames, rank f.1 ≤ rank cs := by
    intro n
    induction n with
    | zero =>
      intro c h
      simp only [runN, Outcome.ok.injEq] at h
      subst h
      simp [start]
    | succ n ih =>
      intro c' h
      rw [runN_add] at h
      obtain ⟨c, h1, h2⟩ := bind_ok h
      obtain ⟨g1, g2⟩ := ih c h1
      have hs : step subrs c = .ok c' := by
        obtain ⟨c'', hs, hr⟩ := bind_ok (by simpa [runN] using h2)
        simp only [Outcome.ok.injEq] at hr
        exact hr ▸ hs
      obtain ⟨frames, st⟩ := c
      cases frames with
      | nil =>
        simp [step] at hs
        subst hs
        exact ⟨g1, g2⟩
      | cons f fs =>
        obtain ⟨fcs, ft⟩ := f
        rcases step_frames subrs hs with e | ⟨ht, t', htt, e | ⟨i, sub, hat, e⟩⟩
        · rw [e]
          refine ⟨by cases fs with | nil => exact .nil | cons g gs => exact (List.isChain_cons_cons.mp g1).2, fun f hf => g2 f (List.mem_cons_of_mem _ hf)⟩
        · rw [e]
          refine ⟨g1, fun f hf => ?_⟩
          rcases List.mem_cons.mp hf with rfl | hf
          · exact g2 (fcs, ft) (List.mem_cons_self ..)
          · exact g2 f (List.mem_cons_of_mem _ hf)
        · have hlt := hacyclic n _ c' h1 hs fcs sub ⟨ft, t', fs, rfl, e⟩
          have hle := g2 (fcs, ft) (List.mem_cons_self ..)
          rw [e]
          refine ⟨List.isChain_cons_cons.mpr ⟨hlt, g1⟩, fun f hf => ?_⟩
          rcases List.mem_cons.mp hf with rfl | hf
          · exact le_trans hlt.le hle
          · rcases List.mem_cons.mp hf with rfl | hf
            · exact hle
            · exact g2 f (List.mem_cons_of_mem _ hf)
  have hchain : ∀ (l : List ℕ) (m : ℕ), l.IsChain (· < ·) → (∀ x ∈ l, x ≤ m) → l.length ≤ m + 1 := by
    intro l m hl hm
    have hb : ∀ (l : List ℕ) (x : ℕ), (x :: l).IsChain (· < ·) → (∀ y ∈ x :: l, y ≤ m) → x + l.length ≤ m := by
      intro l
      induction l with
      | nil => intro x _ h; simpa using h
      | cons y l ih =>
        intro x hc h
        obtain ⟨hxy, hc⟩ := List.isChain_cons_cons.mp hc
        have := ih y hc fun z hz => h z (List.mem_cons_of_mem _ hz)
        simp only [List.length_cons]
        omega
    cases l with
    | nil => simp
    | cons x l => have := hb l x hl hm; simp only [List.length_cons]; omega
  refine c49_halts_partial subrs cs (rank cs + 1) fun n c h => ?_
  obtain ⟨h1, h2⟩ := inv n c h
  have := hchain _ (rank cs) h1 (by
    intro x hx
    obtain ⟨f, hf, rfl⟩ := List.mem_map.mp hx
    exact h2 f hf)
  simpa using this

/-- Subroutine 1 calls subroutine 0. -/
def t1Subrs : Subrs := [(0, [149, 6, 11]), (1, [139, 10, 11])]

/-- A ranking of these subroutines and the charstring. -/
def t1Rank (x : List ℕ) : ℕ := if x = [149, 6, 11] then 0 else if x = [139, 10, 11] then 1 else 2

/-- The check of one step. -/
def t1Check (c : Cfg) : Bool :=
  match step t1Subrs c with
  | .ok c' => match c.frames, c'.frames with
    | (caller, _) :: rest, (callee, _) :: _ :: rest' => if rest'.length = rest.length then decide (t1Rank callee < t1Rank caller) else true
    | _, _ => true
  | _ => true

/-- The assumption is met: subroutine 1 calls subroutine 0, which calls none, and the charstring calls both. -/
theorem c49_acyclic_premises : ∀ n c c', runN t1Subrs n (start [139, 139, 13, 140, 10, 139, 10]) = .ok c → step t1Subrs c = .ok c' →
    ∀ caller callee, CallsFrom c c' caller callee → t1Rank callee < t1Rank caller := by
  have hall : ((List.range 30).all fun n => match runN t1Subrs n (start [139, 139, 13, 140, 10, 139, 10]) with | .ok c => t1Check c | _ => true) = true := by decide +kernel
  have hend : (match runN t1Subrs 30 (start [139, 139, 13, 140, 10, 139, 10]) with | .ok c => c.frames.isEmpty | _ => true) = true := by decide +kernel
  have hstay : ∀ m st, runN t1Subrs m ⟨[], st⟩ = .ok ⟨[], st⟩ := by
    intro m
    induction m with
    | zero => intro st; rfl
    | succ m ih => intro st; exact ih st
  intro n c c' h hs caller callee ⟨t, t', rest, e1, e2⟩
  by_cases hn : n < 30
  · have := List.all_eq_true.mp hall n (List.mem_range.mpr hn)
    rw [h] at this
    have this : t1Check c = true := this
    unfold t1Check at this
    rw [hs] at this
    simp only [e1, e2, if_true] at this
    exact of_decide_eq_true this
  · exfalso
    obtain ⟨m, rfl⟩ := Nat.exists_eq_add_of_le (Nat.le_of_not_lt hn)
    rw [runN_add] at h
    obtain ⟨x, hx, hy⟩ := bind_ok h
    rw [hx] at hend
    obtain ⟨fr, st⟩ := x
    have hfr : fr = [] := List.isEmpty_iff.mp hend
    subst hfr
    rw [hstay] at hy
    simp only [Outcome.ok.injEq] at hy
    subst hy
    cases e1

example : ∃ n, (∃ st, runN t1Subrs n (start [139, 139, 13, 140, 10, 139, 10]) = .ok ⟨[], st⟩) ∨ (runN t1Subrs n (start [139, 139, 13, 140, 10, 139, 10])).isUb = true :=
  c49_halts_acyclic_partial _ _ t1Rank c49_acyclic_premises

/-- **C49, refutation.** A font whose subroutine 0 calls itself never ends: after `n` pairs of
steps there are `n + 1` nested calls (in C++: stack overflow). -/
theorem c49_endless_recursion (n : ℕ) :
    ∃ c, runN [(0, [139, 10])] (2 * n) (start [139, 10]) = .ok c ∧ c.frames.length = n + 1 := by
  have hstep : ∀ (rest : List (List ℕ × ℕ)),
      runN [(0, [139, 10])] 2 ⟨([139, 10], 0) :: rest, St.init⟩ =
        .ok ⟨([139, 10], 0) :: ([139, 10], 2) :: rest, St.init⟩ := by
    intro rest; rfl
  have key : ∀ (n : ℕ) (rest : List (List ℕ × ℕ)),
      ∃ c, runN [(0, [139, 10])] (2 * n) ⟨([139, 10], 0) :: rest, St.init⟩ = .ok c ∧
        c.frames.length = rest.length + n + 1 := by
    intro n
    induction n with
    | zero => intro rest; exact ⟨_, rfl, by simp⟩
    | succ n ih =>
      intro rest
      obtain ⟨c, h1, h2⟩ := ih (([139, 10], 2) :: rest)
      refine ⟨c, ?_, by rw [h2]; simp; omega⟩
      rw [show 2 * (n + 1) = 2 + 2 * n by ring, runN_add, hstep]
      exact h1
  obtain ⟨c, h1, h2⟩ := key n []
  exact ⟨c, h1, by rw [h2]; simp⟩

/-! ### Undefined behaviour -/

/-- The coordinates a path command with code `b` computes from the pen and the arguments (last
argument first); no coordinates if the arguments do not suffice. -/
def coords (b : ℕ) (x y : ℤ) (args : List ℤ) : List ℤ :=
  match b, args with
  | 4, dy :: _ => [y + dy]
  | 7, dy :: _ => [y + dy]
  | 6, dx :: _ => [x + dx]
  | 22, dx :: _ => [x + dx]
  | 5, dy :: dx :: _ => [x + dx, y + dy]
  | 21, dy :: dx :: _ => [x + dx, y + dy]
  | 8, dy3 :: dx3 :: dy2 :: dx2 :: dy1 :: dx1 :: _ =>
    [x + dx1, y + dy1, x + dx1 + dx2, y + dy1 + dy2, x + dx1 + dx2 + dx3, y + dy1 + dy2 + dy3]
  | 30, dx3 :: dy2 :: dx2 :: dy1 :: _ => [x, y + dy1, x + dx2, y + dy1 + dy2, x + dx2 + dx3]
  | 31, dy3 :: dy2 :: dx2 :: dx1 :: _ => [x + dx1, y, x + dx1 + dx2, y + dy2, y + dy2 + dy3]
  | _, _ => []

/-- The causes of undefined behaviour when the interpreter is at index `t` of `cs` in state `st`. -/
inductive Cause (cs : List ℕ) (t : ℕ) (st : St) : Prop where
  /-- a five-byte number is cut off by the end of the charstring -/
  | truncated : cs[t]? = some 255 → cs.length < t + 4 → Cause cs t st
  /-- a division by zero -/
  | divZero (a : ℤ) (as : List ℤ) : cs[t]? = some 12 → cs[t + 1]? = some 12 →
      st.args = 0 :: a :: as → Cause cs t st
  /-- a quotient that is no 32-bit integer -/
  | divOverflow (a b : ℤ) (as : List ℤ) : cs[t]? = some 12 → cs[t + 1]? = some 12 →
      st.args = b :: a :: as → b ≠ 0 → ¬ IsInt32 (Int.tdiv a b) → Cause cs t st
  /-- `callothersubr` for flex with fewer than three further arguments -/
  | flexArgs (n : ℤ) (as : List ℤ) : cs[t]? = some 12 → cs[t + 1]? = some 16 →
      st.args = 0 :: n :: as → as.length < 3 → Cause cs t st
  /-- `callothersubr` for hint replacement without a further argument -/
  | hintArgs (n : ℤ) : cs[t]? = some 12 → cs[t + 1]? = some 16 →
      st.args = [3, n] → Cause cs t st
  /-- any other `callothersubr` with fewer arguments than announced -/
  | otherArgs (o n : ℤ) (as : List ℤ) : cs[t]? = some 12 → cs[t + 1]? = some 16 →
      st.args = o :: n :: as → o ≠ 0 → o ≠ 1 → o ≠ 3 → (as.length : ℤ) < n → Cause cs t st
  /-- a path command that moves the pen or a control point out of the range of `int` -/
  | coordinate (b : ℕ) (v : ℤ) : cs[t]? = some b → v ∈ coords b st.curX st.curY st.args →
      ¬ IsInt32 v → Cause cs t st

theorem chk_ub {v : ℤ} : (chk v).isUb = true ↔ ¬ IsInt32 v := by
  constructor
  · intro h hi; rw [chk_ok hi] at h; simp [Outcome.isUb] at h
  · intro h
    unfold chk
    rw [if_neg]
    · rfl
    · intro hv
      apply h
      unfold inInt intMin intMax at hv
      simp at hv
      unfold IsInt32; omega

theorem isUb_bind_iff {α β : Type} {x : Outcome α} {f : α → Outcome β} :
    (x.bind f).isUb = true ↔ x.isUb = true ∨ ∃ a, x = .ok a ∧ (f a).isUb = true := by
  cases x with
  | ok a =>
    constructor
    · intro h; exact Or.inr ⟨a, rfl, h⟩
    · rintro (h | ⟨b, h1, h2⟩)
      · simp [Outcome.isUb] at h
      · cases h1; exact h2
  | throw m => simp [Outcome.bind, Outcome.isUb]
  | ub m => simp [Outcome.bind, Outcome.isUb]

theorem chk_bind_ub {β : Type} {v : ℤ} {f : ℤ → Outcome β} :
    ((chk v).bind f).isUb = true ↔ ¬ IsInt32 v ∨ (f v).isUb = true := by
  by_cases hv : IsInt32 v
  · rw [chk_ok hv]
    simp [Outcome.bind, hv]
  · constructor
    · intro _; exact Or.inl hv
    · intro _; exact isUb_bind _ (chk_ub.mpr hv)

theorem isUb_ok {α : Type} (a : α) : (Outcome.ok a).isUb = false := rfl

theorem op_ub (b : ℕ) (st : St) :
    (op b st).isUb = true ↔ ∃ v ∈ coords b st.curX st.curY st.args, ¬ IsInt32 v := by
  obtain ⟨x, y, l, u, r, w, args, interp⟩ := st
  simp only
  unfold op
  split
  · simp [coords, isUb_ok]
  · simp [coords, isUb_ok]
  · rename_i h; simp only at h; subst h
    simp [St.moveY, chk_bind_ub, coords, isUb_ok]
  · rename_i h; simp only at h; subst h
    simp [St.moveBy, chk_bind_ub, coords, isUb_ok]
  · rename_i h; simp only at h; subst h
    simp [St.moveX, chk_bind_ub, coords, isUb_ok]
  · rename_i h; simp only at h; subst h
    simp [St.moveY, chk_bind_ub, coords, isUb_ok]
  · rename_i h; simp only at h; subst h
    simp [St.curve, chk_bind_ub, coords, isUb_ok]
  · simp [coords, isUb_ok]
  · rename_i h; simp only at h; subst h
    simp [St.moveBy, chk_bind_ub, coords, isUb_ok]
  · rename_i h; simp only at h; subst h
    simp [St.moveX, chk_bind_ub, coords, isUb_ok]
  · rename_i h; simp only at h; subst h
    simp [St.curve, chk_bind_ub, coords, isUb_ok]
    tauto
  · rename_i h; simp only at h; subst h
    simp [St.curve, chk_bind_ub, coords, isUb_ok]
    tauto
  · rename_i h1 h2 h3 h4 h5 h6 h7 h8 h9 h10 h11 h12
    simp only [isUb_ok, Bool.false_eq_true, false_iff]
    rintro ⟨v, hv, _⟩
    unfold coords at hv
    split at hv
    · exact h3 _ _ rfl rfl
    · exact h6 _ _ rfl rfl
    · exact h5 _ _ rfl rfl
    · exact h10 _ _ rfl rfl
    · exact h4 _ _ _ rfl rfl
    · exact h9 _ _ _ rfl rfl
    · exact h7 _ _ _ _ _ _ _ rfl rfl
    · exact h11 _ _ _ _ _ rfl rfl
    · exact h12 _ _ _ _ _ rfl rfl
    · simp at hv

theorem moveArgs_ub (k : ℕ) : ∀ a b, (moveArgs k a b).isUb = true ↔ a.length < k := by
  induction k with
  | zero => intro a b; simp [moveArgs, Outcome.isUb]
  | succ k ih =>
    intro a b
    cases a with
    | nil => simp [moveArgs, Outcome.isUb]
    | cons x a => simp only [moveArgs, List.length_cons]; rw [ih]; omega

theorem otherSubr_ub (o n : ℤ) (st : St) :
    (otherSubr o n st).isUb = true ↔ o = 0 ∧ st.args.length < 3 ∨ o = 3 ∧ st.args = [] ∨
      o ≠ 0 ∧ o ≠ 1 ∧ o ≠ 3 ∧ (st.args.length : ℤ) < n := by
  unfold otherSubr
  by_cases h0 : o = 0
  · rw [if_pos h0]
    split
    · rename_i h
      simp [isUb_ok, h, h0]
    · rename_i h
      simp only [h0, true_and, Outcome.isUb, true_iff]
      left
      match st.args, h with
      | [], _ => simp
      | [_], _ => simp
      | [_, _], _ => simp
      | a :: b :: c :: as, h => exact absurd rfl (h a b c as)
  · rw [if_neg h0]
    by_cases h1 : o = 1
    · rw [if_pos h1]; simp [isUb_ok, h1]
    · rw [if_neg h1]
      by_cases h3 : o = 3
      · rw [if_pos h3]
        split
        · rename_i h; simp [isUb_ok, h, h3]
        · rename_i h
          simp only [Outcome.isUb, true_iff]
          right; left
          refine ⟨h3, ?_⟩
          match st.args, h with
          | [], _ => rfl
          | a :: as, h => exact absurd rfl (h a as)
      · rw [if_neg h3, isUb_bind_iff, moveArgs_ub]
        simp only [isUb_ok, h0, h1, h3, false_and, false_or, ne_eq, not_false_eq_true, true_and,
          Bool.false_eq_true, and_false, exists_false, or_false]
        omega

theorem escape_ub (b : ℕ) (st : St) :
    (escape b st).isUb = true ↔
      (b = 12 ∧ ∃ num2 num1 as, st.args = num2 :: num1 :: as ∧
        (num2 = 0 ∨ num2 ≠ 0 ∧ ¬ IsInt32 (Int.tdiv num1 num2))) ∨
      (b = 16 ∧ ∃ o n as, st.args = o :: n :: as ∧
        (o = 0 ∧ as.length < 3 ∨ o = 3 ∧ as = [] ∨
          o ≠ 0 ∧ o ≠ 1 ∧ o ≠ 3 ∧ (as.length : ℤ) < n)) := by
  unfold escape
  split
  · simp [isUb_ok]
  · simp [isUb_ok]
  · simp [isUb_ok]
  · simp [isUb_ok]
  · rename_i num2 num1 as h
    by_cases h0 : num2 = 0
    · rw [if_pos h0]
      simp [Outcome.isUb, h, h0]
    · rw [if_neg h0, chk_bind_ub]
      simp [isUb_ok, h, h0]
  · rename_i o n as h
    rw [otherSubr_ub]
    simp [h]
  · split <;> simp [isUb_ok]
  · simp [isUb_ok]
  · rename_i h1 h2 h3 h4 h5 h6 h7 h8
    simp only [isUb_ok, Bool.false_eq_true, false_iff]
    rintro (⟨rfl, num2, num1, as, ha, _⟩ | ⟨rfl, o, n, as, ha, _⟩)
    · first | exact h5 _ _ _ rfl ha | exact h6 _ _ _ rfl ha
    · first | exact h6 _ _ _ rfl ha | exact h7 _ _ _ rfl ha | exact h5 _ _ _ rfl ha

theorem rd_ub (cs : List ℕ) (i : ℕ) : (rd cs i).isUb = true ↔ cs.length < i := by
  unfold rd
  by_cases h1 : i < cs.length
  · rw [if_pos h1]; simp [isUb_ok]; omega
  · rw [if_neg h1]
    by_cases h2 : i = cs.length
    · rw [if_pos h2]; simp [isUb_ok, h2]
    · rw [if_neg h2]; simp [Outcome.isUb]; omega

theorem rd_ok_of_le {cs : List ℕ} {i : ℕ} (h : i ≤ cs.length) :
    rd cs i = .ok ((cs[i]?).getD 0) := by
  unfold rd
  by_cases h1 : i < cs.length
  · rw [if_pos h1]; simp [List.getD_eq_getElem?_getD]
  · rw [if_neg h1, if_pos (by omega)]
    have : cs[i]? = none := List.getElem?_eq_none (by omega)
    rw [this]; rfl

/-- **C49, the causes of undefined behaviour.** One iteration of the interpreter is undefined if and
only if one of the listed causes is present: a cut-off five-byte number, a division by zero or with
overflow, `callothersubr` with too few arguments, or a coordinate outside of 32 bits. -/
theorem c49_ub_causes_partial (subrs : Subrs) (cs : List ℕ) (t : ℕ) (rest : List (List ℕ × ℕ))
    (st : St) (hb : ∀ b ∈ cs, b < 256) (ht : t < cs.length) :
    (step subrs ⟨(cs, t) :: rest, st⟩).isUb = true ↔ Cause cs t st := by
  have hget : cs[t]? = some (cs.getD t 0) := by
    rw [List.getD_eq_getElem _ _ ht]; exact List.getElem?_eq_getElem ht
  have hlt : cs.getD t 0 < 256 := by
    rw [List.getD_eq_getElem _ _ ht]; exact hb _ (List.getElem_mem ht)
  have h1ok : rd cs (t + 1) = .ok ((cs[t + 1]?).getD 0) := rd_ok_of_le (by omega)
  unfold step
  simp only
  rw [if_neg (by omega)]
  generalize hbv : cs.getD t 0 = b at hget hlt
  by_cases h32 : b < 32
  · rw [if_pos h32]
    by_cases h10 : b = 10
    · rw [if_pos h10]
      have hno : ¬ Cause cs t st := by
        intro hc
        subst h10
        cases hc with
        | truncated h _ => rw [hget] at h; cases h
        | divZero a as h _ _ => rw [hget] at h; cases h
        | divOverflow a b as h _ _ _ _ => rw [hget] at h; cases h
        | flexArgs n as h _ _ _ => rw [hget] at h; cases h
        | hintArgs n h _ _ => rw [hget] at h; cases h
        | otherArgs o n as h _ _ _ _ _ _ => rw [hget] at h; cases h
        | coordinate b v h hv _ =>
          rw [hget] at h; cases h
          simp [coords] at hv
      simp only [hno, iff_false, Bool.not_eq_true]
      split
      · rfl
      · split <;> rfl
    · rw [if_neg h10]
      by_cases h12 : b = 12
      · rw [if_pos h12, h1ok]
        have hred : (((Outcome.ok ((cs[t + 1]?).getD 0)).bind fun b2 =>
            (escape b2 st).bind fun s => Outcome.ok (⟨(cs, t + 2) :: rest, s⟩ : Cfg)).isUb = true) ↔
            (escape ((cs[t + 1]?).getD 0) st).isUb = true := by
          show ((escape ((cs[t + 1]?).getD 0) st).bind _).isUb = true ↔ _
          rw [isUb_bind_iff]
          simp [isUb_ok]
        rw [hred, escape_ub]
        subst h12
        constructor
        · rintro (⟨e, num2, num1, as, ha, h⟩ | ⟨e, o, n, as, ha, h⟩)
          · have e' : cs[t + 1]? = some 12 := by
              cases hx : cs[t + 1]? with
              | none => rw [hx] at e; simp at e
              | some z => rw [hx] at e; simp at e; rw [e]
            rcases h with h | ⟨h, hq⟩
            · subst h; exact Cause.divZero _ _ hget e' ha
            · exact Cause.divOverflow _ _ _ hget e' ha h hq
          · have e' : cs[t + 1]? = some 16 := by
              cases hx : cs[t + 1]? with
              | none => rw [hx] at e; simp at e
              | some z => rw [hx] at e; simp at e; rw [e]
            rcases h with ⟨h, hl⟩ | ⟨h, hl⟩ | ⟨h0, h1, h3, hl⟩
            · subst h; exact Cause.flexArgs _ _ hget e' ha hl
            · subst h hl; exact Cause.hintArgs _ hget e' ha
            · exact Cause.otherArgs _ _ _ hget e' ha h0 h1 h3 hl
        · intro hc
          cases hc with
          | truncated h _ => rw [hget] at h; cases h
          | divZero a as h h2 ha => exact Or.inl ⟨by rw [h2]; rfl, _, _, _, ha, Or.inl rfl⟩
          | divOverflow a b as h h2 ha h0 hq =>
            exact Or.inl ⟨by rw [h2]; rfl, _, _, _, ha, Or.inr ⟨h0, hq⟩⟩
          | flexArgs n as h h2 ha hl =>
            exact Or.inr ⟨by rw [h2]; rfl, _, _, _, ha, Or.inl ⟨rfl, hl⟩⟩
          | hintArgs n h h2 ha =>
            exact Or.inr ⟨by rw [h2]; rfl, _, _, _, ha, Or.inr (Or.inl ⟨rfl, rfl⟩)⟩
          | otherArgs o n as h h2 ha h0 h1 h3 hl =>
            exact Or.inr ⟨by rw [h2]; rfl, _, _, _, ha, Or.inr (Or.inr ⟨h0, h1, h3, hl⟩)⟩
          | coordinate b v h hv _ =>
            rw [hget] at h; cases h
            simp [coords] at hv
      · rw [if_neg h12, isUb_bind_iff, op_ub]
        constructor
        · rintro (⟨v, hv, hn⟩ | ⟨a, _, h⟩)
          · exact Cause.coordinate b v hget hv hn
          · simp [isUb_ok] at h
        · intro hc
          left
          cases hc with
          | truncated h _ => rw [hget] at h; cases h; omega
          | divZero a as h _ _ => rw [hget] at h; cases h; omega
          | divOverflow a b as h _ _ _ _ => rw [hget] at h; cases h; omega
          | flexArgs n as h _ _ _ => rw [hget] at h; cases h; omega
          | hintArgs n h _ _ => rw [hget] at h; cases h; omega
          | otherArgs o n as h _ _ _ _ _ _ => rw [hget] at h; cases h; omega
          | coordinate b' v h hv hn =>
            rw [hget] at h; cases h
            exact ⟨v, hv, hn⟩
  · rw [if_neg h32]
    have hcoord : coords b st.curX st.curY st.args = [] := by
      unfold coords
      split <;> first | rfl | omega
    have hcause : Cause cs t st ↔ b = 255 ∧ cs.length < t + 4 := by
      constructor
      · intro hc
        cases hc with
        | truncated h hl => rw [hget] at h; cases h; exact ⟨rfl, hl⟩
        | divZero a as h _ _ => rw [hget] at h; cases h; omega
        | divOverflow a b as h _ _ _ _ => rw [hget] at h; cases h; omega
        | flexArgs n as h _ _ _ => rw [hget] at h; cases h; omega
        | hintArgs n h _ _ => rw [hget] at h; cases h; omega
        | otherArgs o n as h _ _ _ _ _ _ => rw [hget] at h; cases h; omega
        | coordinate b' v h hv hn =>
          rw [hget] at h; cases h
          rw [hcoord] at hv; simp at hv
      · rintro ⟨rfl, hl⟩
        exact Cause.truncated hget hl
    rw [hcause]
    by_cases h246 : b ≤ 246
    · rw [if_pos h246]; simp only [isUb_ok, Bool.false_eq_true, false_iff]; omega
    · rw [if_neg h246]
      by_cases h250 : b ≤ 250
      · rw [if_pos h250, h1ok]
        simp only [Outcome.bind, isUb_ok, Bool.false_eq_true, false_iff]; omega
      · rw [if_neg h250]
        by_cases h254 : b ≤ 254
        · rw [if_pos h254, h1ok]
          simp only [Outcome.bind, isUb_ok, Bool.false_eq_true, false_iff]; omega
        · rw [if_neg h254, h1ok]
          have hb255 : b = 255 := by omega
          simp only [Outcome.bind, hb255, true_and]
          by_cases h4 : cs.length < t + 4
          · simp only [h4, iff_true]
            by_cases h2 : t + 2 ≤ cs.length
            · rw [rd_ok_of_le h2]
              simp only
              by_cases h3 : t + 3 ≤ cs.length
              · rw [rd_ok_of_le h3]
                simp only
                exact isUb_bind _ ((rd_ub _ _).mpr (by omega))
              · exact isUb_bind _ ((rd_ub _ _).mpr (by omega))
            · exact isUb_bind _ ((rd_ub _ _).mpr (by omega))
          · rw [rd_ok_of_le (show t + 2 ≤ cs.length by omega),
              rd_ok_of_le (show t + 3 ≤ cs.length by omega),
              rd_ok_of_le (show t + 4 ≤ cs.length by omega)]
            simp only [isUb_ok, h4, Bool.false_eq_true]

example : (step [] ⟨[([12, 12], 0)], { St.init with args := [0, 7] }⟩).isUb = true := by
  decide +kernel

example : (step [] ⟨[([255, 1, 2], 0)], St.init⟩).isUb = true := by decide +kernel

/-- **C49, refutation.** Concrete malformed charstrings: dividing by zero, popping from an empty
stack and reading behind the end of the string really happen. -/
theorem c49_malformed_fonts :
    (∃ n, (runN [] n (start [140, 139, 12, 12])).isUb = true) ∧
    (∃ n, (runN [] n (start [140, 142, 12, 16])).isUb = true) ∧
    (∃ n, (runN [] n (start [255, 0, 0])).isUb = true) ∧
    (∃ n, (runN [] n (start [140, 255, 127, 255, 255, 255, 22, 140, 22])).isUb = true) :=
  ⟨⟨3, by decide +kernel⟩, ⟨3, by decide +kernel⟩, ⟨1, by decide +kernel⟩, ⟨5, by decide +kernel⟩⟩

/-! ### A safe sublanguage -/

/-- The absolute value. -/
def mag (a : ℤ) : ℕ := a.natAbs

theorem mag_add (a b : ℤ) : mag (a + b) ≤ mag a + mag b := Int.natAbs_add_le a b

theorem mag_zero : mag 0 = 0 := rfl

/-- The sum of the absolute values. -/
def absSum (as : List ℤ) : ℕ := (as.map mag).sum

theorem absSum_cons (a : ℤ) (as : List ℤ) : absSum (a :: as) = mag a + absSum as := by
  simp [absSum]

theorem absSum_drop (as : List ℤ) (k : ℕ) : absSum (as.drop k) ≤ absSum as := by
  induction as generalizing k with
  | nil => simp
  | cons a as ih =>
    cases k with
    | zero => simp
    | succ k =>
      rw [List.drop_succ_cons, absSum_cons]
      have := ih k; omega

/-- The size of the numbers in a state. -/
def size (st : St) : ℕ := mag st.curX + mag st.curY + absSum st.args

theorem mag_add3 (a b c : ℤ) : mag (a + b + c) ≤ mag a + mag b + mag c := by
  have := mag_add (a + b) c
  have := mag_add a b
  omega

theorem mag_add4 (a b c d : ℤ) : mag (a + b + c + d) ≤ mag a + mag b + mag c + mag d := by
  have := mag_add (a + b + c) d
  have := mag_add3 a b c
  omega

theorem coords_le_size (b : ℕ) (st : St) (v : ℤ) (hv : v ∈ coords b st.curX st.curY st.args) :
    mag v ≤ size st := by
  obtain ⟨x, y, l, u, r, w, args, interp⟩ := st
  simp only [size] at *
  unfold coords at hv
  split at hv
  · rename_i dy _
    simp only [List.mem_cons, List.not_mem_nil, or_false] at hv
    subst hv; rw [absSum_cons]; have := mag_add y dy; omega
  · rename_i dy _
    simp only [List.mem_cons, List.not_mem_nil, or_false] at hv
    subst hv; rw [absSum_cons]; have := mag_add y dy; omega
  · rename_i dy _
    simp only [List.mem_cons, List.not_mem_nil, or_false] at hv
    subst hv; rw [absSum_cons]; have := mag_add x dy; omega
  · rename_i dy _
    simp only [List.mem_cons, List.not_mem_nil, or_false] at hv
    subst hv; rw [absSum_cons]; have := mag_add x dy; omega
  · rename_i dy dx _
    simp only [List.mem_cons, List.not_mem_nil, or_false] at hv
    simp only [absSum_cons]
    have := mag_add x dx; have := mag_add y dy
    rcases hv with rfl | rfl <;> omega
  · rename_i dy dx _
    simp only [List.mem_cons, List.not_mem_nil, or_false] at hv
    simp only [absSum_cons]
    have := mag_add x dx; have := mag_add y dy
    rcases hv with rfl | rfl <;> omega
  · rename_i dy3 dx3 dy2 dx2 dy1 dx1 _
    simp only [List.mem_cons, List.not_mem_nil, or_false] at hv
    simp only [absSum_cons]
    have := mag_add x dx1; have := mag_add y dy1
    have := mag_add3 x dx1 dx2; have := mag_add3 y dy1 dy2
    have := mag_add4 x dx1 dx2 dx3; have := mag_add4 y dy1 dy2 dy3
    rcases hv with rfl | rfl | rfl | rfl | rfl | rfl <;> omega
  · rename_i dx3 dy2 dx2 dy1 _
    simp only [List.mem_cons, List.not_mem_nil, or_false] at hv
    simp only [absSum_cons]
    have := mag_add y dy1; have := mag_add x dx2; have := mag_add3 y dy1 dy2
    have := mag_add3 x dx2 dx3
    rcases hv with rfl | rfl | rfl | rfl | rfl <;> omega
  · rename_i dy3 dy2 dx2 dx1 _
    simp only [List.mem_cons, List.not_mem_nil, or_false] at hv
    simp only [absSum_cons]
    have := mag_add x dx1; have := mag_add y dy2; have := mag_add3 x dx1 dx2
    have := mag_add3 y dy2 dy3
    rcases hv with rfl | rfl | rfl | rfl | rfl <;> omega
  · simp at hv

theorem size_drop (st : St) (k : ℕ) : size (st.drop k) ≤ size st := by
  unfold St.drop
  split
  · have := absSum_drop st.args k
    simp only [size]; omega
  · exact le_refl _

theorem moveBy_eq {st st' : St} {dx dy : ℤ} (h : st.moveBy dx dy = .ok st') :
    st' = st.jump (st.curX + dx) (st.curY + dy) := by
  unfold St.moveBy at h
  obtain ⟨x, h1, h⟩ := bind_ok h
  obtain ⟨y, h2, h⟩ := bind_ok h
  cases h
  rw [(chk_eq h1).1, (chk_eq h2).1]

theorem moveX_eq {st st' : St} {dx : ℤ} (h : st.moveX dx = .ok st') :
    st' = { st with curX := st.curX + dx }.growX (st.curX + dx) := by
  unfold St.moveX at h
  obtain ⟨x, h1, h⟩ := bind_ok h
  cases h
  rw [(chk_eq h1).1]

theorem moveY_eq {st st' : St} {dy : ℤ} (h : st.moveY dy = .ok st') :
    st' = { st with curY := st.curY + dy }.growY (st.curY + dy) := by
  unfold St.moveY at h
  obtain ⟨x, h1, h⟩ := bind_ok h
  cases h
  rw [(chk_eq h1).1]

theorem curve_pen {st st' : St} {dx1 dy1 dx2 dy2 dx3 dy3 : ℤ}
    (h : st.curve dx1 dy1 dx2 dy2 dx3 dy3 = .ok st') :
    st'.curX = st.curX + dx1 + dx2 + dx3 ∧ st'.curY = st.curY + dy1 + dy2 + dy3 ∧
      st'.args = st.args ∧ st'.interp = st.interp := by
  unfold St.curve at h
  obtain ⟨x1, h1, h⟩ := bind_ok h
  obtain ⟨y1, h2, h⟩ := bind_ok h
  obtain ⟨x2, h3, h⟩ := bind_ok h
  obtain ⟨y2, h4, h⟩ := bind_ok h
  obtain ⟨x3, h5, h⟩ := bind_ok h
  obtain ⟨y3, h6, h⟩ := bind_ok h
  cases h
  have e1 := (chk_eq h1).1
  have e2 := (chk_eq h2).1
  have e3 := (chk_eq h3).1
  have e4 := (chk_eq h4).1
  have e5 := (chk_eq h5).1
  have e6 := (chk_eq h6).1
  subst e1 e2 e3 e4 e5 e6
  exact ⟨rfl, rfl, rfl, rfl⟩

theorem op_size (b : ℕ) {st st' : St} (h : op b st = .ok st') :
    size st' ≤ size st ∧ st'.interp = st.interp := by
  have mx := fun d => mag_add st.curX d
  have my := fun d => mag_add st.curY d
  have mx4 := fun a b c => mag_add4 st.curX a b c
  have my4 := fun a b c => mag_add4 st.curY a b c
  have mz := mag_zero
  unfold op at h
  split at h
  · cases h; exact ⟨size_drop _ _, by unfold St.drop; split <;> rfl⟩
  · cases h; exact ⟨size_drop _ _, by unfold St.drop; split <;> rfl⟩
  · rename_i dy _ ha; have := moveY_eq h; subst this
    have := my dy
    simp only [size, ha, St.growY, absSum_cons]; exact ⟨by omega, trivial⟩
  · rename_i dy dx _ ha; have := moveBy_eq h; subst this
    have := my dy; have := mx dx
    simp only [size, ha, St.jump, St.growX, St.growY, absSum_cons]; exact ⟨by omega, trivial⟩
  · rename_i dx _ ha; have := moveX_eq h; subst this
    have := mx dx
    simp only [size, ha, St.growX, absSum_cons]; exact ⟨by omega, trivial⟩
  · rename_i dy _ ha; have := moveY_eq h; subst this
    have := my dy
    simp only [size, ha, St.growY, absSum_cons]; exact ⟨by omega, trivial⟩
  · rename_i dy3 dx3 dy2 dx2 dy1 dx1 _ ha; obtain ⟨e1, e2, e3, e4⟩ := curve_pen h
    have := mx4 dx1 dx2 dx3; have := my4 dy1 dy2 dy3
    simp only [size, ha, e1, e2, e3, e4, absSum_cons]; exact ⟨by omega, trivial⟩
  · rename_i ha; cases h
    simp only [size, ha, St.jump, St.growX, St.growY, absSum_cons]; exact ⟨by omega, trivial⟩
  · rename_i dy dx _ ha; have := moveBy_eq h; subst this
    have := my dy; have := mx dx
    simp only [size, ha, St.jump, St.growX, St.growY, absSum_cons]; exact ⟨by omega, trivial⟩
  · rename_i dx _ ha; have := moveX_eq h; subst this
    have := mx dx
    simp only [size, ha, St.growX, absSum_cons]; exact ⟨by omega, trivial⟩
  · rename_i dx3 dy2 dx2 dy1 _ ha; obtain ⟨e1, e2, e3, e4⟩ := curve_pen h
    have := mx4 0 dx2 dx3; have := my4 dy1 dy2 0
    simp only [size, ha, e1, e2, e3, e4, absSum_cons]; exact ⟨by omega, trivial⟩
  · rename_i dy3 dy2 dx2 dx1 _ ha; obtain ⟨e1, e2, e3, e4⟩ := curve_pen h
    have := mx4 dx1 dx2 0; have := my4 0 dy2 dy3
    simp only [size, ha, e1, e2, e3, e4, absSum_cons]; exact ⟨by omega, trivial⟩
  · cases h; exact ⟨le_refl _, rfl⟩

theorem escape_size (b : ℕ) {st st' : St} (hi : st.interp = []) (h12 : b ≠ 12) (h16 : b ≠ 16)
    (h : escape b st = .ok st') : size st' ≤ size st ∧ st'.interp = [] := by
  unfold escape at h
  split at h
  · cases h; exact ⟨size_drop _ _, by unfold St.drop; split <;> exact hi⟩
  · cases h; exact ⟨size_drop _ _, by unfold St.drop; split <;> exact hi⟩
  · cases h; exact ⟨size_drop _ _, by unfold St.drop; split <;> exact hi⟩
  · rename_i ha; cases h
    simp only [size, ha, St.jump, St.growX, St.growY, absSum_cons]; exact ⟨by omega, hi⟩
  · exact absurd rfl h12
  · exact absurd rfl h16
  · rw [hi] at h; cases h; exact ⟨le_refl _, hi⟩
  · rename_i ha; cases h
    simp only [size, ha, St.jump, St.growX, St.growY, absSum_cons]; exact ⟨by omega, hi⟩
  · cases h; exact ⟨le_refl _, hi⟩

theorem safe_run (subrs : Subrs) (cs : List ℕ) (hb : ∀ b ∈ cs, b < 256) (h10 : 10 ∉ cs)
    (h255 : 255 ∉ cs)
    (hesc : ∀ i, cs[i]? = some 12 → cs[i + 1]? ≠ some 12 ∧ cs[i + 1]? ≠ some 16)
    (hlen : cs.length ≤ 1000000) :
    ∀ (k t : ℕ) (st : St), cs.length - t ≤ k → t ≤ cs.length + 1 → size st ≤ 1131 * t →
      st.interp = [] →
      ∃ n st', runN subrs n ⟨[(cs, t)], st⟩ = .ok ⟨[], st'⟩ := by
  have hfin : ∀ (t : ℕ) (st : St), cs.length ≤ t →
      ∃ n st', runN subrs n ⟨[(cs, t)], st⟩ = .ok ⟨[], st'⟩ := by
    intro t st ht
    refine ⟨1, st, ?_⟩
    have hs : step subrs ⟨[(cs, t)], st⟩ = .ok ⟨[], st⟩ := by
      unfold step
      simp only
      rw [if_pos ht]
    simp only [runN, hs, Outcome.bind]
  intro k
  induction k with
  | zero => intro t st hk _ _ _; exact hfin t st (by omega)
  | succ k ih =>
    intro t st hk ht hs hi
    by_cases hlt : cs.length ≤ t
    · exact hfin t st hlt
    · have hlt' : t < cs.length := by omega
      -- no undefined behaviour
      have hget : cs[t]? = some (cs.getD t 0) := by
        rw [List.getD_eq_getElem _ _ hlt']; exact List.getElem?_eq_getElem hlt'
      have hmem : cs.getD t 0 ∈ cs := by
        rw [List.getD_eq_getElem _ _ hlt']; exact List.getElem_mem hlt'
      have hnub : ¬ (step subrs ⟨[(cs, t)], st⟩).isUb = true := by
        rw [c49_ub_causes_partial subrs cs t [] st hb hlt']
        intro hc
        cases hc with
        | truncated h _ =>
          rw [hget] at h
          simp only [Option.some.injEq] at h
          rw [h] at hmem; exact h255 hmem
        | divZero a as h h2 _ => exact (hesc t h).1 h2
        | divOverflow a b as h h2 _ _ _ => exact (hesc t h).1 h2
        | flexArgs n as h h2 _ _ => exact (hesc t h).2 h2
        | hintArgs n h h2 _ => exact (hesc t h).2 h2
        | otherArgs o n as h h2 _ _ _ _ _ => exact (hesc t h).2 h2
        | coordinate b v h hv hn =>
          have := coords_le_size b st v hv
          apply hn
          unfold mag at this
          unfold IsInt32
          omega
      have hnth := not_throw_step subrs ⟨[(cs, t)], st⟩
      cases hstep : step subrs ⟨[(cs, t)], st⟩ with
      | throw m => rw [hstep] at hnth; simp [Outcome.isThrow] at hnth
      | ub m => rw [hstep] at hnub; simp [Outcome.isUb] at hnub
      | ok c' =>
        -- the next state
        have hnext : ∃ t' st1, c' = ⟨[(cs, t')], st1⟩ ∧ t < t' ∧ t' ≤ cs.length + 1 ∧
            size st1 ≤ 1131 * t' ∧ st1.interp = [] := by
          have hlt256 : cs.getD t 0 < 256 := hb _ hmem
          have hne10 : cs.getD t 0 ≠ 10 := fun e => h10 (e ▸ hmem)
          have hne255 : cs.getD t 0 ≠ 255 := fun e => h255 (e ▸ hmem)
          have h1ok : rd cs (t + 1) = .ok ((cs[t + 1]?).getD 0) := rd_ok_of_le (by omega)
          have hw : (cs[t + 1]?).getD 0 < 256 := by
            cases hx : cs[t + 1]? with
            | none => simp
            | some z => simpa using hb z (List.mem_of_getElem? hx)
          unfold step at hstep
          simp only at hstep
          rw [if_neg hlt] at hstep
          rw [h1ok] at hstep
          generalize hbv : cs.getD t 0 = b at *
          by_cases h32 : b < 32
          · rw [if_pos h32, if_neg hne10] at hstep
            by_cases h12 : b = 12
            · rw [if_pos h12] at hstep
              simp only [Outcome.bind] at hstep
              obtain ⟨s, h2, h3⟩ := bind_ok hstep
              cases h3
              have he := hesc t (by rw [hget, h12])
              have hsz := escape_size ((cs[t + 1]?).getD 0) hi (by
                intro e
                cases hx : cs[t + 1]? with
                | none => rw [hx] at e; simp at e
                | some z => rw [hx] at e; simp at e; exact he.1 (by rw [hx, e])) (by
                intro e
                cases hx : cs[t + 1]? with
                | none => rw [hx] at e; simp at e
                | some z => rw [hx] at e; simp at e; exact he.2 (by rw [hx, e])) h2
              exact ⟨t + 2, s, rfl, by omega, by omega, by omega, hsz.2⟩
            · rw [if_neg h12] at hstep
              obtain ⟨s, h2, h3⟩ := bind_ok hstep
              cases h3
              have hsz := op_size b h2
              exact ⟨t + 1, s, rfl, by omega, by omega, by omega, by rw [hsz.2, hi]⟩
          · rw [if_neg h32] at hstep
            by_cases h246 : b ≤ 246
            · rw [if_pos h246] at hstep
              cases hstep
              refine ⟨t + 1, _, rfl, by omega, by omega, ?_, hi⟩
              simp only [size, St.push, absSum_cons] at hs ⊢
              have : mag ((b : ℤ) - 139) ≤ 1131 := by unfold mag; omega
              omega
            · rw [if_neg h246] at hstep
              by_cases h250 : b ≤ 250
              · rw [if_pos h250] at hstep
                simp only [Outcome.bind] at hstep
                cases hstep
                refine ⟨t + 2, _, rfl, by omega, by omega, ?_, hi⟩
                simp only [size, St.push, absSum_cons] at hs ⊢
                have : mag (((b : ℤ) - 247) * 256 + (((cs[t + 1]?).getD 0 : ℕ) : ℤ) + 108) ≤ 1131 := by
                  unfold mag; omega
                omega
              · rw [if_neg h250, if_pos (by omega)] at hstep
                simp only [Outcome.bind] at hstep
                cases hstep
                refine ⟨t + 2, _, rfl, by omega, by omega, ?_, hi⟩
                simp only [size, St.push, absSum_cons] at hs ⊢
                have : mag (-((b : ℤ) - 251) * 256 - (((cs[t + 1]?).getD 0 : ℕ) : ℤ) - 108) ≤ 1131 := by
                  unfold mag; omega
                omega
        obtain ⟨t', st1, rfl, htt, ht', hs', hi'⟩ := hnext
        obtain ⟨n, st2, hn⟩ := ih t' st1 (by omega) ht' hs' hi'
        exact ⟨n + 1, st2, by simp only [runN, hstep, Outcome.bind]; exact hn⟩

/-- **C49, a safe sublanguage.** Every sequence of at most a million bytes — however malformed —
that contains no subroutine call (10), no five-byte number (255) and none of the pairs 12 12 (`div`)
and 12 16 (`callothersubr`) is interpreted to its end without undefined behaviour.  Partial: the
excluded commands are exactly those for which `c49_ub_causes_partial` and `c49_endless_recursion`
give failing inputs. -/
theorem c49_safe_bytes_partial (subrs : Subrs) (cs : List ℕ) (hb : ∀ b ∈ cs, b < 256)
    (h10 : 10 ∉ cs) (h255 : 255 ∉ cs)
    (hesc : ∀ i, cs[i]? = some 12 → cs[i + 1]? ≠ some 12 ∧ cs[i + 1]? ≠ some 16)
    (hlen : cs.length ≤ 1000000) :
    ∃ n st, runN subrs n (start cs) = .ok ⟨[], st⟩ :=
  safe_run subrs cs hb h10 h255 hesc hlen cs.length 0 St.init (by omega) (by omega)
    (by decide +kernel) rfl

example : ∃ st, runN [] 8 (start [1, 8, 31, 200, 13, 12, 7, 254]) = .ok ⟨[], st⟩ :=
  ⟨_, rfl⟩

end Verif.Props
