import Verif.Model.Type1
import Verif.Spec.Type1
import Mathlib.Tactic.Linarith
import Mathlib.Tactic.Ring
import Mathlib.Tactic.NormNum
import Mathlib.Data.Nat.Bitwise

/-!
# Type 1 font files: properties C46 to C49 and C61
-/

namespace Verif.Props

open Verif Verif.Type1 Verif.Spec.Type1

/-! ## C46: decryption -/

theorem rd_mid (pre : List ℕ) (b : ℕ) (post : List ℕ) :
    rd (pre ++ b :: post) pre.length = .ok b := by
  unfold rd
  rw [if_pos (by simp)]
  simp [List.getD_append_right]

theorem xor_byte_lt {a b : ℕ} (ha : a < 256) (hb : b < 256) : a ^^^ b < 256 :=
  Nat.xor_lt_two_pow (n := 8) ha hb

theorem decryptFrom_encrypt (n : ℕ) (ps : List ℕ) : ∀ (pre post : List ℕ) (r : ℕ), r < 65536 →
    (∀ p ∈ ps, p < 256) →
    decryptFrom .wrap (pre ++ encrypt r ps ++ post) n ps.length pre.length r =
      .ok (ps.drop (n - pre.length)) := by
  induction ps with
  | nil => intro pre post r _ _; simp [decryptFrom]
  | cons p ps ih =>
    intro pre post r hr hps
    have hp : p < 256 := hps p (by simp)
    have hk : r / 256 < 256 := by omega
    have hc : p ^^^ (r / 256) < 256 := xor_byte_lt hp hk
    simp only [encrypt, List.length_cons, decryptFrom]
    have e' : ∀ q : List ℕ, pre ++ (p ^^^ r / 256) :: q ++ post =
        pre ++ (p ^^^ r / 256) :: (q ++ post) := by intro q; simp
    rw [e', rd_mid]
    simp only [Outcome.bind, nextKey, Nat.mod_eq_of_lt hc, c1, c2, Nat.xor_xor_cancel_right,
      Nat.mod_eq_of_lt hp]
    have h := ih (pre ++ [p ^^^ r / 256]) post
      ((((p ^^^ r / 256) + r) * 52845 + 22719) % 65536) (by omega)
      (fun q hq => hps q (by simp [hq]))
    simp only [List.append_assoc, List.singleton_append, List.length_append, List.length_cons,
      List.length_nil] at h
    simp only [List.cons_append, List.append_assoc] at h ⊢
    rw [h]
    simp only
    by_cases hn : n ≤ pre.length
    · have : n - (pre.length + (0 + 1)) = 0 := by omega
      have h0 : n - pre.length = 0 := by omega
      rw [if_pos hn, this, h0]; rfl
    · have : n - pre.length = (n - (pre.length + (0 + 1))) + 1 := by omega
      rw [if_neg hn, this]; rfl

/-- **C46.** With two's complement wrap-around, decrypting what the Adobe cipher made of `lead ++
plain` with the same key and `lead.length` leading bytes gives `plain`.  Partial: the C++ standard
leaves the overflow of `(cipher + r) * c1` undefined, see `c46_overflow`. -/
theorem c46_round_trip_partial (r : ℕ) (lead plain : List ℕ) (hr : r < 65536)
    (hl : ∀ p ∈ lead, p < 256) (hp : ∀ p ∈ plain, p < 256) :
    decrypt .wrap (encrypt r (lead ++ plain)) (lead ++ plain).length r lead.length = .ok plain := by
  have h := decryptFrom_encrypt lead.length (lead ++ plain) [] [] r hr (by
    intro p hm
    rcases List.mem_append.mp hm with h | h
    · exact hl p h
    · exact hp p h)
  simpa [decrypt] using h

example : decrypt .wrap (encrypt 4330 ([0, 0, 0, 0] ++ [139, 139, 13, 14])) 8 4330 4 =
    .ok [139, 139, 13, 14] := by decide +kernel

/-- **C46.** Decryption by the letter of the standard never differs from wrap-around decryption:
it either gives the same text or is undefined. -/
theorem c46_strict_agrees (bytes : List ℕ) (numBytes r n : ℕ) (t : List ℕ)
    (h : decrypt .strict bytes numBytes r n = .ok t) :
    decrypt .wrap bytes numBytes r n = .ok t := by
  unfold decrypt at *
  generalize 0 = i at *
  induction numBytes generalizing i r t with
  | zero => simpa [decryptFrom] using h
  | succ k ih =>
    simp only [decryptFrom] at h ⊢
    cases hb : rd bytes i with
    | throw m => rw [hb] at h; simp [Outcome.bind] at h
    | ub m => rw [hb] at h; simp [Outcome.bind] at h
    | ok b =>
      rw [hb] at h
      simp only [Outcome.bind] at h ⊢
      by_cases hle : ((b % 256 + r) * c1 + c2 : ℕ) ≤ 2147483647
      · simp only [nextKey, if_pos hle] at h ⊢
        cases hd : decryptFrom .strict bytes n k (i + 1) (((b % 256 + r) * c1 + c2) % 65536) with
        | throw m => rw [hd] at h; simp at h
        | ub m => rw [hd] at h; simp at h
        | ok rest => rw [hd] at h; rw [ih _ _ _ hd]; exact h
      · simp only [nextKey, if_neg hle] at h
        simp at h

example : decrypt .strict [7, 8] 2 3 1 = .ok (([7, 8].drop 1).map fun c => c ^^^ (((7 + 3) * 52845 +
    22719) % 65536 / 256)) := by decide +kernel

theorem nextKey_strict_ub (r cipher : ℕ) (h : 2147483647 < (cipher + r) * c1 + c2) :
    nextKey .strict r cipher = .ub "signed integer overflow" := by
  unfold nextKey
  simp only
  rw [if_neg (not_le.mpr h)]

theorem decrypt_first_ub (b : ℕ) (bs : List ℕ) (k r n : ℕ)
    (h : nextKey .strict r (b % 256) = .ub "signed integer overflow") :
    (decryptFrom .strict (b :: bs) n (k + 1) 0 r).isUb = true := by
  have hr : rd (b :: bs) 0 = .ok b := rd_mid [] b bs
  simp only [decryptFrom, hr, Outcome.bind, h, Outcome.isUb]

/-- **C46, refutation.** By the C++ standard the decryption of the private part of *every* Type 1
font is undefined: with the key 55665 the product already overflows at the first byte. -/
theorem c46_overflow (bytes : List ℕ) (numBytes n : ℕ) (h0 : 0 < numBytes) (hb : bytes ≠ []) :
    (decrypt .strict bytes numBytes 55665 n).isUb = true := by
  obtain ⟨k, rfl⟩ : ∃ k, numBytes = k + 1 := ⟨numBytes - 1, by omega⟩
  cases bytes with
  | nil => exact absurd rfl hb
  | cons b bs =>
    have h1 : 55665 * c1 ≤ (b % 256 + 55665) * c1 := Nat.mul_le_mul_right _ (by omega)
    have h2 : 2147483647 < 55665 * c1 + c2 := by decide +kernel
    exact decrypt_first_ub b bs k 55665 n (nextKey_strict_ub _ _ (by omega))

example : (decrypt .strict [1, 2, 3] 3 55665 4).isUb = true := by decide +kernel

/-! ## C61: reading the encrypted part -/

theorem viaHex_id {c : ℕ} (h : c < 256) : viaHex c = c := by
  have key : ∀ c : Fin 256, viaHex c.val = c.val := by decide +kernel
  exact key ⟨c, h⟩

theorem cell_cons (i v j : ℕ) (buf : List (ℕ × ℕ)) :
    cell ((i, v) :: buf) j = if j = i then some v else cell buf j := by
  unfold cell
  by_cases h : j = i
  · subst h; simp
  · have : (i == j) = false := by simp [Ne.symm h]
    simp [List.find?, this, h]

theorem binaryLoop_spec (cap : ℤ) : ∀ (k b : ℕ) (s : List ℕ) (buf : List (ℕ × ℕ)),
    (∀ c ∈ s, c < 256) → ((b + min k s.length : ℕ) : ℤ) ≤ cap →
    ∃ buf', binaryLoop cap k b s buf = .ok (buf', b + min k s.length) ∧
      ∀ i, cell buf' i = if b ≤ i ∧ i < b + min k s.length then s[i - b]? else cell buf i := by
  intro k
  induction k with
  | zero =>
    intro b s buf _ _
    refine ⟨buf, by simp [binaryLoop], fun i => ?_⟩
    rw [if_neg (by simp)]
  | succ k ih =>
    intro b s buf hs hcap
    cases s with
    | nil =>
      refine ⟨buf, by simp [binaryLoop], fun i => ?_⟩
      rw [if_neg (by simp)]
    | cons c s =>
      have hm : min (k + 1) (c :: s).length = min k s.length + 1 := by
        simp [List.length_cons, Nat.succ_min_succ]
      rw [hm] at hcap ⊢
      have hput : put cap buf b (viaHex c) = .ok ((b, viaHex c) :: buf) := by
        unfold put; rw [if_pos (by push_cast at hcap; omega)]
      obtain ⟨buf', he, hc⟩ := ih (b + 1) s ((b, viaHex c) :: buf)
        (fun x hx => hs x (by simp [hx])) (by push_cast at hcap ⊢; omega)
      refine ⟨buf', ?_, fun i => ?_⟩
      · simp only [binaryLoop, hput, Outcome.bind]
        rw [he]; congr 2; omega
      · rw [hc i, cell_cons]
        by_cases h1 : b + 1 ≤ i ∧ i < b + 1 + min k s.length
        · rw [if_pos h1, if_pos (by omega)]
          have : i - b = (i - (b + 1)) + 1 := by omega
          rw [this]; simp
        · rw [if_neg h1]
          by_cases h2 : i = b
          · subst h2
            rw [if_pos rfl, if_pos (by omega)]
            simp [viaHex_id (hs c (by simp))]
          · rw [if_neg h2, if_neg (by omega)]

/-- **C61.** The characters taken for hexadecimal digits are exactly the digits and the letters from A to F and from a to f. -/
theorem c61_hex_digits (c : ℕ) : isHexDigit c = true ↔ c ∈ Spec.Type1.hexDigits := by
  by_cases h : c < 103
  · revert h; revert c; decide +kernel
  · constructor
    · intro h1; simp [isHexDigit] at h1; omega
    · intro h1
      have : ∀ x ∈ Spec.Type1.hexDigits, x < 103 := by decide +kernel
      exact absurd (this c h1) h

/-- **C61.** A binary encrypted part (the first four bytes are neither four hexadecimal digits nor a
PFB section header) is read unchanged: the bytes handed to the decryption are the first
`min Length2 (stream length)` bytes of the stream. -/
theorem c61_binary_unchanged (length : ℤ) (s : List ℕ) (hs : ∀ c ∈ s, c < 256)
    (h4 : 4 ≤ s.length) (hlen : 4 ≤ length)
    (hbin : ∃ c ∈ s.take 4, isHexDigit c = false)
    (hhead : ¬ (s[0]? = some 128 ∧ s[1]? = some 2)) :
    ∃ buf, readEncrypted length s = .ok (some (buf, min length.toNat s.length)) ∧
      ∀ i < min length.toNat s.length, cell buf i = s[i]? := by
  match s, h4 with
  | a :: b :: c :: d :: s', _ =>
    have hb : (!([a, b, c, d].all isHexDigit)) = true := by
      obtain ⟨x, hx, hf⟩ := hbin
      simp only [Bool.not_eq_true', List.all_eq_false]
      exact ⟨x, by simpa using hx, by simp [hf]⟩
    have hh : ¬ (a = 128 ∧ b = 2) := by simpa using hhead
    have hp : ∀ (i v : ℕ) (buf : List (ℕ × ℕ)), i < 4 → put length buf i v = .ok ((i, v) :: buf) := by
      intro i v buf hi; unfold put; rw [if_pos (by omega)]
    obtain ⟨buf', he, hc⟩ := binaryLoop_spec length (length.toNat - 4) 4 s'
      [(3, viaHex d), (2, viaHex c), (1, viaHex b), (0, viaHex a)]
      (fun x hx => hs x (by simp [hx])) (by push_cast; omega)
    refine ⟨buf', ?_, fun i hi => ?_⟩
    · simp only [readEncrypted, hb, if_true]
      rw [if_neg (by omega), if_neg hh, hp _ _ _ (by omega)]
      simp only [Outcome.bind]
      rw [hp _ _ _ (by omega)]
      simp only
      rw [hp _ _ _ (by omega)]
      simp only
      rw [hp _ _ _ (by omega)]
      simp only
      rw [he]
      simp only
      congr 3
      simp only [List.length_cons]; omega
    · rw [hc i]
      simp only [List.length_cons] at hi
      by_cases h1 : 4 ≤ i
      · rw [if_pos (by omega)]
        have : i = (i - 4) + 4 := by omega
        conv_rhs => rw [this]
        simp
      · rw [if_neg (by omega)]
        have ha := viaHex_id (hs a (by simp))
        have hb' := viaHex_id (hs b (by simp))
        have hc' := viaHex_id (hs c (by simp))
        have hd := viaHex_id (hs d (by simp))
        have : i = 0 ∨ i = 1 ∨ i = 2 ∨ i = 3 := by omega
        rcases this with rfl | rfl | rfl | rfl <;> simp [cell_cons, ha, hb', hc', hd]

example : readEncrypted 5 [200, 1, 2, 3, 4, 5, 6] =
    .ok (some ([(4, 4), (3, 3), (2, 2), (1, 1), (0, 200)], 5)) := by decide +kernel

theorem header_length (c d e f L : ℕ) (hc : c < 256) (hd : d < 256) (he : e < 256) (hf : f < 128)
    (hL : L = c + 256 * d + 65536 * e + 16777216 * f) :
    Int.bmod ((c : ℤ) + 256 * d + 65536 * e + 16777216 * f) 4294967296 = (L : ℤ) := by
  have h : (c : ℤ) + 256 * d + 65536 * e + 16777216 * f = (L : ℤ) := by rw [hL]; push_cast; ring
  rw [h]
  unfold Int.bmod
  simp only
  have hlt : L < 2147483648 := by omega
  clear hL h
  have h1 : (L : ℤ) % ((4294967296 : ℕ) : ℤ) = L := by
    apply Int.emod_eq_of_lt <;> push_cast <;> omega
  rw [h1]
  rw [if_pos (by push_cast; omega)]

theorem readEncrypted_header (length : ℤ) (c d e f L : ℕ) (s : List ℕ) (h0 : 0 ≤ length)
    (hc : c < 256) (hd : d < 256) (he : e < 256) (hf : f < 128)
    (hL : L = c + 256 * d + 65536 * e + 16777216 * f) :
    readEncrypted length (128 :: 2 :: c :: d :: e :: f :: s) =
      (binaryLoop length L 0 s []).bind fun r => .ok (some r) := by
  have hb : (!([128, 2, c, d].all isHexDigit)) = true := by simp [isHexDigit]
  simp only [readEncrypted, hb, if_true]
  rw [if_neg (not_lt.mpr h0), if_pos (by simp), header_length c d e f L hc hd he hf hL]
  simp only [Int.toNat_natCast]

/-- **C61, PFB header.** With a section header `0x80 0x02` the section of the announced length `L` is
read unchanged provided that it is not longer than the dictionary's Length2. -/
theorem c61_header (length : ℤ) (c d e f L : ℕ) (s : List ℕ) (hs : ∀ x ∈ s, x < 256)
    (hc : c < 256) (hd : d < 256) (he : e < 256) (hf : f < 128)
    (hL : L = c + 256 * d + 65536 * e + 16777216 * f) (hlen : (L : ℤ) ≤ length) :
    ∃ buf, readEncrypted length (128 :: 2 :: c :: d :: e :: f :: s) =
        .ok (some (buf, min L s.length)) ∧
      ∀ i < min L s.length, cell buf i = s[i]? := by
  obtain ⟨buf', hl, hcell⟩ := binaryLoop_spec length L 0 s [] hs (by omega)
  refine ⟨buf', ?_, fun i hi => ?_⟩
  · rw [readEncrypted_header length c d e f L s (by omega) hc hd he hf hL, hl]
    simp [Outcome.bind]
  · rw [hcell i, if_pos (by omega)]; simp

example : readEncrypted 2 [128, 2, 2, 0, 0, 0, 9, 8, 7] = .ok (some ([(1, 8), (0, 9)], 2)) := by
  decide +kernel

theorem binaryLoop_overflow (length : ℤ) : ∀ (k b : ℕ) (s : List ℕ) (buf : List (ℕ × ℕ)),
    (b : ℤ) ≤ length → length < (b + k : ℕ) → length < (b + s.length : ℕ) →
    (binaryLoop length k b s buf).isUb = true := by
  intro k
  induction k with
  | zero => intro b s buf h1 h2; push_cast at h2; omega
  | succ k ih =>
    intro b s buf h1 h2 h3
    cases s with
    | nil => simp at h3; omega
    | cons x s =>
      by_cases hb : (b : ℤ) < length
      · have hput : put length buf b (viaHex x) = .ok ((b, viaHex x) :: buf) := by
          unfold put; rw [if_pos hb]
        simp only [binaryLoop, hput, Outcome.bind]
        apply ih
        · push_cast; omega
        · push_cast at h2 ⊢; omega
        · simp only [List.length_cons] at h3; push_cast at h3 ⊢; omega
      · have hput : put length buf b (viaHex x) = .ub "write outside of the buffer" := by
          unfold put; rw [if_neg hb]
        simp only [binaryLoop, hput, Outcome.bind]; rfl

theorem isUb_bind {α β : Type} {x : Outcome α} (f : α → Outcome β) (h : x.isUb = true) :
    (x.bind f).isUb = true := by
  cases x with
  | ok r => simp [Outcome.isUb] at h
  | throw m => simp [Outcome.isUb] at h
  | ub m => rfl

/-- **C61/C49, refutation.** A section header that announces more bytes than Length2 makes the
program write behind the end of its buffer (if the stream has the bytes). -/
theorem c61_header_overflow (length : ℤ) (c d e f L : ℕ) (s : List ℕ) (h0 : 0 ≤ length)
    (hc : c < 256) (hd : d < 256) (he : e < 256) (hf : f < 128)
    (hL : L = c + 256 * d + 65536 * e + 16777216 * f) (hlen : length < L) (hs : length < s.length) :
    (readEncrypted length (128 :: 2 :: c :: d :: e :: f :: s)).isUb = true := by
  rw [readEncrypted_header length c d e f L s h0 hc hd he hf hL]
  exact isUb_bind _ (binaryLoop_overflow length L 0 s [] (by simpa using h0)
    (by push_cast; omega) (by push_cast; omega))

example : (readEncrypted 1 [128, 2, 2, 0, 0, 0, 9, 8, 7]).isUb = true := by decide +kernel

theorem hexLoop_cell (cap length : ℤ) : ∀ (k i b : ℕ) (s : List ℕ) (buf : List (ℕ × ℕ))
    (r : List (ℕ × ℕ) × ℕ), 2 ≤ i → cell buf 1 = none →
    hexLoop cap length k i b s buf = .ok r → cell r.1 1 = none ∧ b ≤ r.2 := by
  intro k
  induction k with
  | zero => intro i b s buf r _ hc h; simp [hexLoop] at h; subst h; exact ⟨hc, le_refl _⟩
  | succ k ih =>
    intro i b s buf r hi hc h
    simp only [hexLoop] at h
    by_cases hl : (i : ℤ) < length
    · rw [if_pos hl] at h
      match s, h with
      | [], h => simp at h; subst h; exact ⟨hc, le_refl _⟩
      | [_], h => simp at h; subst h; exact ⟨hc, le_refl _⟩
      | x :: y :: s', h =>
        simp only at h
        by_cases hx : x = 255 ∨ y = 255
        · rw [if_pos hx] at h; simp at h; subst h; exact ⟨hc, le_refl _⟩
        · rw [if_neg hx] at h
          unfold put at h
          by_cases hcap : (i : ℤ) < cap
          · rw [if_pos hcap] at h
            simp only [Outcome.bind] at h
            obtain ⟨h1, h2⟩ := ih (i + 2) (b + 1) s' _ r (by omega)
              (by rw [cell_cons, if_neg (by omega)]; exact hc) h
            exact ⟨h1, by omega⟩
          · rw [if_neg hcap] at h; simp [Outcome.bind] at h
    · rw [if_neg hl] at h; simp at h; subst h; exact ⟨hc, le_refl _⟩

/-- **C61, refutation.** An encrypted part in hexadecimal form is *never* read correctly: either
the program writes outside of its buffer (or fails to allocate it), or the second of the bytes it
hands to the decryption was never written. -/
theorem c61_hex_never_read (length : ℤ) (a b c d : ℕ) (s : List ℕ)
    (hx : ∀ x ∈ [a, b, c, d], isHexDigit x = true) (buf : List (ℕ × ℕ)) (k : ℕ)
    (h : readEncrypted length (a :: b :: c :: d :: s) = .ok (some (buf, k))) :
    1 < k ∧ cell buf 1 = none := by
  have hb : (!([a, b, c, d].all isHexDigit)) = false := by
    simp only [Bool.not_eq_false', List.all_eq_true]; exact hx
  simp only [readEncrypted, hb] at h
  simp only [Bool.false_eq_true, if_false] at h
  by_cases hneg : length / 2 < 0
  · rw [if_pos hneg] at h; simp at h
  · rw [if_neg hneg] at h
    unfold put at h
    by_cases h0 : ((0 : ℕ) : ℤ) < length / 2
    · rw [if_pos h0] at h
      simp only [Outcome.bind] at h
      by_cases h2 : ((2 : ℕ) : ℤ) < length / 2
      · rw [if_pos h2] at h
        simp only at h
        cases hl : hexLoop (length / 2) length s.length 4 2 s
            [(2, (16 * charToHex c + charToHex d) % 256), (0, (16 * charToHex a + charToHex b) % 256)] with
        | throw m => rw [hl] at h; simp at h
        | ub m => rw [hl] at h; simp at h
        | ok r =>
          rw [hl] at h
          simp at h
          obtain ⟨h1, h3⟩ := hexLoop_cell _ _ _ _ _ _ _ _ (by omega) (by simp [cell]) hl
          subst h
          exact ⟨by simp only at h3; omega, h1⟩
      · rw [if_neg h2] at h; simp at h
    · rw [if_neg h0] at h; simp [Outcome.bind] at h

example : readEncrypted 40 [97, 98, 99, 100, 48, 49] =
    .ok (some ([(4, 1), (2, 205), (0, 171)], 3)) := by decide +kernel

/-- **C61/C49, refutation.** If the stream really has the announced number of hexadecimal digits
the program always writes outside of its buffer. -/
theorem c61_hex_overflow (length : ℤ) (a b c d : ℕ) (s : List ℕ)
    (hx : ∀ x ∈ [a, b, c, d], isHexDigit x = true) (hff : ∀ x ∈ s, x ≠ 255) (h0 : 0 ≤ length)
    (hs : length ≤ s.length + 4) :
    (readEncrypted length (a :: b :: c :: d :: s)).isUb = true := by
  have hb : (!([a, b, c, d].all isHexDigit)) = false := by
    simp only [Bool.not_eq_false', List.all_eq_true]; exact hx
  have key : ∀ (k i b : ℕ) (s : List ℕ) (buf : List (ℕ × ℕ)), (∀ x ∈ s, x ≠ 255) →
      length ≤ s.length + i → s.length ≤ k → length / 2 < length - 1 → i % 2 = 0 → 4 ≤ i →
      (i : ℤ) ≤ length / 2 + 1 →
      (hexLoop (length / 2) length k i b s buf).isUb = true := by
    intro k
    induction k with
    | zero => intro i b s buf _ h1 h2 h3 h5 h6; omega
    | succ k ih =>
      intro i b s buf hff h1 h2 h3 h5 h6 h4
      simp only [hexLoop]
      have hil : (i : ℤ) < length := by omega
      rw [if_pos hil]
      match s, hff, h1, h2 with
      | [], _, h1, _ => simp at h1; omega
      | [x], _, h1, _ =>
        simp only [List.length_cons, List.length_nil] at h1
        push_cast at h1
        omega
      | x :: y :: s', hff, h1, h2 =>
        simp only
        rw [if_neg (by
          rintro (h | h)
          · exact hff x (by simp) h
          · exact hff y (by simp) h)]
        unfold put
        by_cases hcap : (i : ℤ) < length / 2
        · rw [if_pos hcap]
          simp only [Outcome.bind]
          apply ih
          · exact fun z hz => hff z (by simp [hz])
          · simp only [List.length_cons] at h1; push_cast at h1 ⊢; omega
          · simp only [List.length_cons] at h2; omega
          · exact h3
          · omega
          · omega
          · push_cast; omega
        · rw [if_neg hcap]; rfl
  simp only [readEncrypted, hb]
  simp only [Bool.false_eq_true, if_false]
  rw [if_neg (by omega)]
  unfold put
  by_cases h1 : ((0 : ℕ) : ℤ) < length / 2
  · rw [if_pos h1]
    simp only [Outcome.bind]
    by_cases h2 : ((2 : ℕ) : ℤ) < length / 2
    · rw [if_pos h2]
      simp only
      have hk := key s.length 4 2 s
        [(2, (16 * charToHex c + charToHex d) % 256), (0, (16 * charToHex a + charToHex b) % 256)]
        hff (by push_cast; omega) (le_refl _) (by push_cast at h2; omega) rfl (le_refl _)
        (by push_cast at h2 ⊢; omega)
      cases hl : hexLoop (length / 2) length s.length 4 2 s
          [(2, (16 * charToHex c + charToHex d) % 256), (0, (16 * charToHex a + charToHex b) % 256)] with
      | throw m => rw [hl] at hk; simp [Outcome.isUb] at hk
      | ub m => rfl
      | ok r => rw [hl] at hk; simp [Outcome.isUb] at hk
    · rw [if_neg h2]; rfl
  · rw [if_neg h1]; rfl

example : (readEncrypted 8 [97, 98, 99, 100, 48, 49, 50, 51]).isUb = true := by decide +kernel

/-- **C61, finding.** Upper-case hexadecimal digits, which the format detection accepts, have no
entry in the digit table and count as zero. -/
theorem c61_upper_case_digits (c : ℕ) (h1 : 65 ≤ c) (h2 : c ≤ 70) :
    isHexDigit c = true ∧ charToHex c = 0 := by
  constructor
  · simp [isHexDigit]; omega
  · unfold charToHex; rw [if_neg (by omega), if_neg (by omega)]

/-! ## C47: numbers -/

theorem getD_mid (pre : List ℕ) (b : ℕ) (post : List ℕ) :
    (pre ++ b :: post).getD pre.length 0 = b := by
  simp [List.getD_append_right]

theorem rd_at (pre post : List ℕ) (bs : List ℕ) (j b : ℕ) (h : bs[j]? = some b) :
    rd (pre ++ bs ++ post) (pre.length + j) = .ok b := by
  obtain ⟨hj, hb⟩ := List.getElem?_eq_some_iff.mp h
  unfold rd
  rw [if_pos (by simp; omega)]
  simp only [List.getD_eq_getElem?_getD, List.append_assoc]
  rw [List.getElem?_append_right (by omega)]
  simp [List.getElem?_append_left hj, h]

theorem getD_at (pre post : List ℕ) (b : ℕ) (bs : List ℕ) :
    (pre ++ (b :: bs) ++ post).getD pre.length 0 = b := by
  simp [List.getD_append_right]

/-- **C47.** Every 32-bit integer, in each of its encodings and in whatever charstring and state it
occurs, is pushed with exactly its value, and the interpreter goes on behind the encoding. -/
theorem c47_numbers (subrs : Subrs) (v : ℤ) (bs pre post : List ℕ) (rest : List (List ℕ × ℕ))
    (st : St) (h : NumEnc v bs) :
    step subrs ⟨(pre ++ bs ++ post, pre.length) :: rest, st⟩ =
      .ok ⟨(pre ++ bs ++ post, pre.length + bs.length) :: rest,
        { st with args := v :: st.args }⟩ := by
  have hne : bs ≠ [] := by cases h <;> simp
  have hlt : ¬ (pre ++ bs ++ post).length ≤ pre.length := by
    have := List.length_pos_iff.mpr hne
    simp only [List.length_append, not_le]; omega
  unfold step
  simp only
  rw [if_neg hlt]
  cases h with
  | one h1 h2 =>
    rw [getD_at]
    rw [if_neg (by omega), if_pos (by omega)]
    have : (((v + 139).toNat : ℕ) : ℤ) - 139 = v := by omega
    rw [this]; rfl
  | pos h1 h2 =>
    rw [getD_at]
    rw [if_neg (by omega), if_neg (by omega), if_pos (by omega),
      rd_at pre post _ 1 _ (by simp; rfl)]
    simp only [Outcome.bind]
    have : ((((247 + (v - 108) / 256).toNat : ℕ) : ℤ) - 247) * 256 +
        ((((v - 108) % 256).toNat : ℕ) : ℤ) + 108 = v := by omega
    rw [this]; rfl
  | neg h1 h2 =>
    rw [getD_at]
    rw [if_neg (by omega), if_neg (by omega), if_neg (by omega), if_pos (by omega),
      rd_at pre post _ 1 _ (by simp; rfl)]
    simp only [Outcome.bind]
    have : -((((251 + (-v - 108) / 256).toNat : ℕ) : ℤ) - 251) * 256 -
        ((((-v - 108) % 256).toNat : ℕ) : ℤ) - 108 = v := by omega
    rw [this]; rfl
  | long hv =>
    rw [getD_at]
    rw [if_neg (by omega), if_neg (by omega), if_neg (by omega), if_neg (by omega),
      rd_at pre post _ 1 _ (by simp; rfl), rd_at pre post _ 2 _ (by simp; rfl),
      rd_at pre post _ 3 _ (by simp; rfl), rd_at pre post _ 4 _ (by simp; rfl)]
    simp only [Outcome.bind]
    obtain ⟨h1, h2⟩ := hv
    have hx : (16777216 * (((v / 16777216 % 256).toNat : ℕ) : ℤ) +
        65536 * (((v / 65536 % 256).toNat : ℕ) : ℤ) + 256 * (((v / 256 % 256).toNat : ℕ) : ℤ) +
        (((v % 256).toNat : ℕ) : ℤ)) = v % 4294967296 := by omega
    rw [hx]
    have hy : Int.bmod (v % 4294967296) 4294967296 = v := by
      have : Int.bmod (v % ((4294967296 : ℕ) : ℤ)) 4294967296 = Int.bmod v 4294967296 :=
        Int.emod_bmod v 4294967296
      push_cast at this
      rw [this]
      apply Int.bmod_eq_of_le <;> omega
    rw [hy]; rfl

example : step [] ⟨[([7, 255, 255, 255, 255, 254, 13], 1)], St.init⟩ =
    .ok ⟨[([7, 255, 255, 255, 255, 254, 13], 6)], { St.init with args := [-2] }⟩ := by
  decide +kernel

example : NumEnc (-2) [255, 255, 255, 255, 254] := NumEnc.long (-2) (by unfold IsInt32; omega)

example : NumEnc 1000 [250, 124] := NumEnc.pos 1000 (by omega) (by omega)

/-- **C47.** Every 32-bit integer has an encoding. -/
theorem c47_every_number (v : ℤ) (h : IsInt32 v) : ∃ bs, NumEnc v bs ∧ ∀ b ∈ bs, b < 256 := by
  refine ⟨_, NumEnc.long v h, ?_⟩
  intro b hb
  simp only [List.mem_cons, List.not_mem_nil, or_false] at hb
  rcases hb with rfl | rfl | rfl | rfl | rfl <;> omega

end Verif.Props
