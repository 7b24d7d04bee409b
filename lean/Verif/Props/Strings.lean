import Verif.Props.Indexing
import Verif.Lemmas.Round
import Mathlib.Data.List.Infix
/-! C31–C34: JOIN and SPLIT, character slicing, CONCAT, LENGTH. -/

open Lib Spec

/-! ### C31 -/

namespace Spec

/-- Reading `part` followed by the delimiter, the delimiter is first met where the part ends. -/
def EndsAtDelim (d part : Str) : Prop := ∀ k < part.length, ¬ d <+: (part ++ d).drop k

end Spec

theorem startsWith_iff (s p : Str) : Str.startsWith s p = true ↔ p <+: s := by
  induction s generalizing p with
  | nil => cases p <;> simp [Str.startsWith]
  | cons c s ih =>
    cases p with
    | nil => simp [Str.startsWith]
    | cons d p =>
      rw [Str.startsWith, Bool.and_eq_true, ih, List.cons_prefix_cons, beq_iff_eq]
      exact and_congr_left fun _ => eq_comm

theorem splitGo_skip (p : Str) (k : ℕ) (acc cs : Str) : Str.splitGo p k acc cs = Str.splitGo p 0 acc (cs.drop k) := by
  induction k generalizing cs with
  | zero => simp
  | succ k ih =>
    cases cs with
    | nil => simp [Str.splitGo]
    | cons c cs => rw [Str.splitGo, ih]; simp

theorem splitGo_ne_nil (p : Str) (k : ℕ) (acc cs : Str) : Str.splitGo p k acc cs ≠ [] := by
  rw [splitGo_skip]
  generalize cs.drop k = l
  induction l generalizing acc with
  | nil => simp [Str.splitGo]
  | cons c l ih => rw [Str.splitGo]; split
                   · simp
                   · exact ih _

theorem join_cons (sep a : Str) (l : List Str) (h : l ≠ []) : Str.join sep (a :: l) = a ++ sep ++ Str.join sep l := by
  cases l with
  | nil => exact absurd rfl h
  | cons b l => rfl

theorem join_splitGo (p : Str) (hp : p ≠ []) (acc cs : Str) : Str.join p (Str.splitGo p 0 acc cs) = acc.reverse ++ cs := by
  induction hn : cs.length using Nat.strong_induction_on generalizing acc cs with
  | _ n ih =>
    cases cs with
    | nil => simp [Str.splitGo, Str.join]
    | cons c cs =>
      rw [Str.splitGo]
      split
      · rename_i h
        rw [startsWith_iff] at h
        obtain ⟨t, ht⟩ := h
        rw [join_cons _ _ _ (splitGo_ne_nil p _ _ _), splitGo_skip, ih _ ?_ _ _ rfl]
        · cases p with
          | nil => exact absurd rfl hp
          | cons d p =>
            simp only [List.cons_append, List.cons.injEq] at ht
            obtain ⟨rfl, rfl⟩ := ht
            simp
        · simp at hn ⊢; omega
      · rw [ih cs.length (by simp at hn; omega) _ _ rfl]; simp

theorem join_nil_sep (l : List Str) : Str.join [] l = l.flatten := by
  induction l with
  | nil => rfl
  | cons a l ih =>
    cases l with
    | nil => simp [Str.join]
    | cons b l => simp only [Str.join, ih]; simp

theorem join_split (s p : Str) : Str.join p (Str.split s p) = s := by
  unfold Str.split
  split
  · rename_i h
    rw [List.isEmpty_iff] at h; subst h
    rw [join_nil_sep]
    simp
    induction s with
    | nil => rfl
    | cons c s ih => simpa using ih
  · rename_i h
    rw [join_splitGo p (by rintro rfl; simp at h)]; simp

theorem prefix_append_iff {d u r : Str} (h : d.length ≤ u.length) : d <+: u ++ r ↔ d <+: u := by
  constructor
  · intro hd; exact List.prefix_of_prefix_length_le hd (List.prefix_append u r) h
  · intro hd; exact hd.trans (List.prefix_append u r)

theorem splitGo_part (d part rest acc : Str) (hd : d ≠ []) (h : EndsAtDelim d part) :
    Str.splitGo d 0 acc (part ++ d ++ rest) = (acc.reverse ++ part) :: Str.splitGo d 0 [] rest := by
  induction part generalizing acc with
  | nil =>
    cases d with
    | nil => exact absurd rfl hd
    | cons x d =>
      rw [List.nil_append, List.cons_append, Str.splitGo, if_pos (by rw [startsWith_iff]; exact ⟨rest, by simp⟩), splitGo_skip]
      simp
  | cons c part ih =>
    rw [List.cons_append, List.cons_append, Str.splitGo]
    have h0 := h 0 (by simp)
    rw [if_neg, ih]
    · simp
    · intro k hk hc; exact h (k + 1) (by simpa using hk) (by simpa using hc)
    · rw [startsWith_iff, ← List.cons_append, ← List.cons_append, prefix_append_iff (by simp; omega)]
      simpa using h0

theorem splitGo_last (d part acc : Str) (h : EndsAtDelim d part) :
    Str.splitGo d 0 acc part = [acc.reverse ++ part] := by
  induction part generalizing acc with
  | nil => simp [Str.splitGo]
  | cons c part ih =>
    rw [Str.splitGo, if_neg, ih]
    · simp
    · intro k hk hc; exact h (k + 1) (by simpa using hk) (by simpa using hc)
    · rw [startsWith_iff]
      intro hc
      exact h 0 (by simp) (by simpa using hc.trans (List.prefix_append (c :: part) d))

theorem split_join (d : Str) (hd : d ≠ []) (parts : List Str) (hne : parts ≠ []) (h : ∀ p ∈ parts, EndsAtDelim d p) :
    Str.split (Str.join d parts) d = parts := by
  unfold Str.split
  rw [if_neg (by rw [List.isEmpty_iff]; exact hd)]
  induction parts with
  | nil => exact absurd rfl hne
  | cons p parts ih =>
    cases parts with
    | nil => simp only [Str.join]; rw [splitGo_last d p [] (h p (by simp))]; simp
    | cons q parts =>
      rw [join_cons _ _ _ (by simp), splitGo_part d p _ [] hd (h p (by simp)), ih (by simp) (fun r hr => h r (by simp [hr]))]
      simp

theorem joinParts_strs (X : Ext) (parts : List Str) : Arr.joinParts X (parts.map .str) = .ok parts := by
  induction parts with
  | nil => rfl
  | cons p parts ih => simp [Arr.joinParts, Arr.joinPart, ih, bind, Except.bind, pure, Except.pure]

theorem method_joinParts_strs (X : Ext) (parts : List Str) : Method.joinParts X (parts.map .str) = .ok parts := by
  induction parts with
  | nil => rfl
  | cons p parts ih => simp [Method.joinParts, ih, bind, Except.bind, pure, Except.pure]

theorem fn_join (X : Ext) (parts : List Str) (d : Str) : fn X c!"JOIN" [.arr (parts.map .str), .str d] = .ok (.str (Str.join d parts)) := by
  rw [fn_eq X _ _ (by decide), show execFast X c!"JOIN" [.arr (parts.map .str), .str d] = Arr.join X [.arr (parts.map .str), .str d] from rfl]
  simp [Arr.join, argAt, joinParts_strs, bind, Except.bind, pure, Except.pure]

theorem fn_split (X : Ext) (s d : Str) : fn X c!"SPLIT" [.str s, .str d] = .ok (.arr ((Str.split s d).map .str)) := by
  rw [fn_eq X _ _ (by decide)]; rfl

theorem meth_split (X : Ext) (s d : Str) : meth1 X (.str s) c!"split" (.str d) = .ok (.arr ((Str.split s d).map .str)) := by
  rw [meth1_eq]; rfl

theorem meth_join (X : Ext) (parts : List Str) (d : Str) : meth1 X (.arr (parts.map .str)) c!"join" (.str d) = .ok (.str (Str.join d parts)) := by
  rw [meth1_eq, show ∀ env items args, Method.exec X none env c!"join" false (.arr items) args = Method.join X env items args from fun _ _ _ => rfl]
  simp only [Method.join, Method.ev, method_joinParts_strs, bind, Except.bind]
  rw [show (Legacy.argOf X (.var c!"a")).run none ((Env.empty.insert c!"r" (.arr (parts.map .str))).insert c!"a" (.str d)) = .ok (.str d) from rfl]
  rfl

/-- C31 fails as stated: no part need contain the delimiter for it to be found across the end of a part, and the
empty list of parts comes back as one empty part. -/
theorem C31_split_join_wrong (X : Ext) :
    evaluate X c!"SPLIT(JOIN([\"a\", \"b\"], \"aa\"), \"aa\")" = .ok (.arr [.str [], .str c!"ab"]) ∧
    evaluate X c!"SPLIT(JOIN([], \",\"), \",\")" = .ok (.arr [.str []]) := ⟨by kernel_rfl, by kernel_rfl⟩

/-- C31, partial: splitting what was joined gives the parts back when there is a part and the delimiter is not met
before the end of a part. Missing: the cases in `C31_split_join_wrong`. -/
theorem C31_split_join_partial (X : Ext) (parts : List Str) (d : Str) (hne : parts ≠ []) (hd : d ≠ []) (h : ∀ p ∈ parts, EndsAtDelim d p) :
    ∃ s, fn X c!"JOIN" [.arr (parts.map .str), .str d] = .ok (.str s) ∧ fn X c!"SPLIT" [.str s, .str d] = .ok (.arr (parts.map .str)) :=
  ⟨_, fn_join X parts d, by rw [fn_split, split_join d hd parts hne h]⟩

/-- C31, partial: for a delimiter of one character, "not contained in any part" is enough. -/
theorem C31_split_join_char_partial (X : Ext) (parts : List Str) (c : Char) (hne : parts ≠ []) (h : ∀ p ∈ parts, c ∉ p) :
    ∃ s, fn X c!"JOIN" [.arr (parts.map .str), .str [c]] = .ok (.str s) ∧ fn X c!"SPLIT" [.str s, .str [c]] = .ok (.arr (parts.map .str)) := by
  refine C31_split_join_partial X parts [c] hne (by simp) ?_
  intro p hp k hk hc
  rw [List.drop_append_of_le_length (by omega), List.drop_eq_getElem_cons hk, List.cons_append, List.cons_prefix_cons] at hc
  exact h p hp (hc.1 ▸ List.getElem_mem hk)

/-- C31: joining what was split gives the text back, for every text and delimiter (the empty one too), in the method
and in the function form. -/
theorem C31_join_split (X : Ext) (s d : Str) :
    ∃ parts : List Str, meth1 X (.str s) c!"split" (.str d) = .ok (.arr (parts.map .str)) ∧ meth1 X (.arr (parts.map .str)) c!"join" (.str d) = .ok (.str s) ∧
      fn X c!"SPLIT" [.str s, .str d] = .ok (.arr (parts.map .str)) ∧ fn X c!"JOIN" [.arr (parts.map .str), .str d] = .ok (.str s) := by
  refine ⟨Str.split s d, meth_split X s d, ?_, fn_split X s d, ?_⟩
  · rw [meth_join, join_split]
  · rw [fn_join, join_split]

example : EndsAtDelim c!", " c!"a,b" := by unfold EndsAtDelim; decide
example (X : Ext) : evaluate X c!"SPLIT(JOIN([\"a\", \"\", \"b\"], \", \"), \", \")" = .ok (.arr [.str c!"a", .str [], .str c!"b"]) := by kernel_rfl

/-! ### C32 -/

theorem width_pos (c : Char) : 0 < Str.width c := by unfold Str.width; split_ifs <;> omega

theorem takeBytes_offset (s : Str) (k : ℕ) : Str.takeBytes s (Str.byteOffset s k) = some (s.take k) := by
  induction s generalizing k with
  | nil => simp [Str.byteOffset, Str.takeBytes]
  | cons c s ih =>
    cases k with
    | zero => simp [Str.byteOffset, Str.takeBytes]
    | succ k =>
      have := width_pos c
      obtain ⟨w, hw⟩ : ∃ w, Str.width c + Str.byteOffset s k = w + 1 := ⟨Str.width c + Str.byteOffset s k - 1, by omega⟩
      rw [Str.byteOffset, hw, Str.takeBytes, if_pos (by omega), show w + 1 - Str.width c = Str.byteOffset s k by omega, ih]
      rfl

theorem dropBytes_offset (s : Str) (k : ℕ) : Str.dropBytes s (Str.byteOffset s k) = some (s.drop k) := by
  induction s generalizing k with
  | nil => simp [Str.byteOffset, Str.dropBytes]
  | cons c s ih =>
    cases k with
    | zero => simp [Str.byteOffset, Str.dropBytes]
    | succ k =>
      have := width_pos c
      obtain ⟨w, hw⟩ : ∃ w, Str.width c + Str.byteOffset s k = w + 1 := ⟨Str.width c + Str.byteOffset s k - 1, by omega⟩
      rw [Str.byteOffset, hw, Str.dropBytes, if_pos (by omega), show w + 1 - Str.width c = Str.byteOffset s k by omega, ih]
      rfl

theorem byteOffset_take (s : Str) (i j : ℕ) (h : i ≤ j) : Str.byteOffset (s.take j) i = Str.byteOffset s i := by
  induction s generalizing i j with
  | nil => simp
  | cons c s ih =>
    cases i with
    | zero => cases j <;> rfl
    | succ i =>
      cases j with
      | zero => omega
      | succ j => rw [List.take_succ_cons, Str.byteOffset, Str.byteOffset, ih i j (by omega)]

theorem byteOffset_mono (s : Str) (i j : ℕ) (h : i ≤ j) : Str.byteOffset s i ≤ Str.byteOffset s j := by
  induction s generalizing i j with
  | nil => simp [Str.byteOffset]
  | cons c s ih =>
    cases i with
    | zero => simp [Str.byteOffset]
    | succ i =>
      cases j with
      | zero => omega
      | succ j => rw [Str.byteOffset, Str.byteOffset]; have := ih i j (by omega); omega

theorem byteOffset_len (s : Str) : Str.byteOffset s s.length = Str.byteLen s := by
  induction s with
  | nil => rfl
  | cons c s ih => rw [List.length_cons, Str.byteOffset, Str.byteLen, ih]

/-- Slicing between the byte offsets of characters `i ≤ j` never panics and gives the characters `i..j`. -/
theorem slice_chars (s : Str) (i j : ℕ) (h : i ≤ j) :
    Str.sliceBytes s (Str.byteOffset s i) (Str.byteOffset s j) = some ((s.take j).drop i) := by
  unfold Str.sliceBytes
  rw [if_pos (byteOffset_mono s i j h), takeBytes_offset]
  simp only
  rw [← byteOffset_take s i j h, dropBytes_offset]

theorem slice_to_end (s : Str) (i : ℕ) (h : i ≤ s.length) :
    Str.sliceBytes s (Str.byteOffset s i) (Str.byteLen s) = some (s.drop i) := by
  rw [← byteOffset_len, slice_chars s i s.length h]; simp

theorem slice_from_start (s : Str) (j : ℕ) : Str.sliceBytes s 0 (Str.byteOffset s j) = some (s.take j) := by
  have : Str.byteOffset s 0 = 0 := by cases s <;> rfl
  rw [← this, slice_chars s 0 j (by omega)]; simp

/-- Rust's bound on the size of a string: at most `isize::MAX` bytes, hence characters. -/
abbrev Spec.Fits (s : Str) : Prop := s.length < 2 ^ 63

theorem flt_fin (p q : ℚ) : F64.flt (.fin p) (.fin q) = true ↔ p < q := decide_eq_true_iff
theorem flt_zero_fin (b : Bool) (q : ℚ) : F64.flt (.zero b) (.fin q) = true ↔ 0 < q := decide_eq_true_iff

theorem u64Max_toNat : F64.u64Max.toNat = 2 ^ 64 - 1 := rfl

theorem toUsize_eq {n : F64} {t : ℤ} (h : TruncatesTo n t) : n.toUsize = min t.toNat (2 ^ 64 - 1) := by
  have e : F64.u64Max = 2 ^ 64 - 1 := rfl
  cases n with
  | nan => exact h.elim
  | inf s => exact h.elim
  | zero s => simp only [TruncatesTo] at h; subst h; rfl
  | fin q =>
    simp only [F64.toUsize, F64.toIntSat, isTrunc_unique h, e]
    split_ifs <;> omega

theorem trunc_nonpos {q : ℚ} {t : ℤ} (h : IsTrunc q t) (hq : q ≤ 0) : t ≤ 0 := by
  by_contra hc
  have hc' : (1 : ℚ) ≤ t := by exact_mod_cast (by omega : 1 ≤ t)
  obtain ⟨h1, -, h3⟩ := h
  rw [abs_of_nonneg (by linarith : (0 : ℚ) ≤ t), abs_of_nonpos hq] at h1
  nlinarith

theorem takeCount_eq {n : F64} {t : ℤ} (h : TruncatesTo n t) : StrFn.takeCount n = min t.toNat (2 ^ 64 - 1) := by
  unfold StrFn.takeCount
  split
  · exact toUsize_eq h
  · rename_i hc
    cases n with
    | nan => exact h.elim
    | inf s => exact h.elim
    | zero s => simp only [TruncatesTo] at h; subst h; rfl
    | fin q =>
      have : q ≤ 0 := by
        by_contra hq
        exact hc (by simp [F64.isFinite, F64.fgt, F64.flt, F64.toRat]; exact decide_eq_true (lt_of_not_ge hq))
      have := trunc_nonpos h this
      omega

theorem take_sat (s : Str) (hs : Fits s) (k : ℕ) : s.take (min k (2 ^ 64 - 1)) = s.take k := by
  unfold Fits at hs
  by_cases h : k ≤ 2 ^ 64 - 1
  · rw [min_eq_left h]
  · rw [min_eq_right (by omega), List.take_of_length_le (by omega), List.take_of_length_le (by omega)]

theorem drop_sat (s : Str) (hs : Fits s) (k : ℕ) : s.drop (min k (2 ^ 64 - 1)) = s.drop k := by
  unfold Fits at hs
  by_cases h : k ≤ 2 ^ 64 - 1
  · rw [min_eq_left h]
  · rw [min_eq_right (by omega), List.drop_of_length_le (by omega), List.drop_of_length_le (by omega)]

theorem left_eq (X : Ext) (s : Str) (n : F64) : fn X c!"LEFT" [.str s, .num n] = .ok (.str (s.take (StrFn.takeCount n))) := by
  rw [fn_eq X _ _ (by decide), show execFast X c!"LEFT" [.str s, .num n] = StrFn.slice s 0 (StrFn.charByteOffset s (StrFn.takeCount n)) from rfl]
  simp only [StrFn.slice, StrFn.charByteOffset, slice_from_start]

theorem right_eq (X : Ext) (s : Str) (n : F64) : fn X c!"RIGHT" [.str s, .num n] = .ok (.str (s.drop (s.length - StrFn.takeCount n))) := by
  rw [fn_eq X _ _ (by decide), show execFast X c!"RIGHT" [.str s, .num n] =
    StrFn.slice s (StrFn.charByteOffset s (StrFn.charCount s - StrFn.takeCount n)) (Str.byteLen s) from rfl]
  simp only [StrFn.slice, StrFn.charByteOffset, StrFn.charCount, slice_to_end s _ (Nat.sub_le ..)]

theorem charCount_eq (s : Str) : StrFn.charCount s = s.length := rfl

theorem substringCore_none (s : Str) (a : ℕ) : StrFn.substringCore s a none = .ok (.str (s.drop a)) := by
  have hn := charCount_eq s
  unfold StrFn.substringCore
  by_cases ha : s.length ≤ a
  · rw [if_pos (by omega), List.drop_of_length_le ha]
  · rw [if_neg (by omega)]
    simp only [StrFn.slice, StrFn.charByteOffset]
    rw [slice_chars s _ _ (le_max_right _ _), max_eq_left (by omega), hn, min_eq_left (by omega)]; simp

theorem substringCore_some (s : Str) (hs : Fits s) (a : ℕ) (m : F64) :
    StrFn.substringCore s a (some (.num m)) = .ok (.str ((s.drop a).take m.toUsize)) := by
  have hn := charCount_eq s
  unfold Fits at hs
  unfold StrFn.substringCore
  by_cases ha : s.length ≤ a
  · rw [if_pos (by omega), List.drop_of_length_le ha]; simp
  · rw [if_neg (by omega)]
    simp only [StrFn.slice, StrFn.charByteOffset, StrFn.satAdd, u64Max_toNat]
    rw [slice_chars s _ _ (le_max_right _ _), List.drop_take, hn, min_eq_left (by omega : a ≤ s.length)]
    simp only [Except.ok.injEq, Value.str.injEq]
    rw [List.take_eq_take_iff, List.length_drop]
    omega

theorem substring_eq1 (X : Ext) (s : Str) (n : F64) : fn X c!"SUBSTRING" [.str s, .num n] = .ok (.str (s.drop n.toUsize)) := by
  rw [fn_eq X _ _ (by decide), ← substringCore_none]; rfl

theorem substring_eq2 (X : Ext) (s : Str) (hs : Fits s) (n m : F64) :
    fn X c!"SUBSTRING" [.str s, .num n, .num m] = .ok (.str ((s.drop n.toUsize).take m.toUsize)) := by
  rw [fn_eq X _ _ (by decide), ← substringCore_some s hs]; rfl

/-- C32 fails: at +∞ both halves are empty. -/
theorem C32_left_substring_wrong (X : Ext) :
    evaluate X c!"CONCAT(LEFT(\"ab\", \"inf\"::Float), SUBSTRING(\"ab\", \"inf\"::Float))" = .ok (.str []) := by kernel_rfl

/-- C32, partial: cutting a text at any position but +∞ (where it is false) gives two parts that make up the text. -/
theorem C32_left_substring_partial (X : Ext) (s : Str) (n : F64) (hn : n ≠ .inf false) :
    ∃ a b, fn X c!"LEFT" [.str s, .num n] = .ok (.str a) ∧ fn X c!"SUBSTRING" [.str s, .num n] = .ok (.str b) ∧ a ++ b = s := by
  refine ⟨_, _, left_eq X s n, substring_eq1 X s n, ?_⟩
  rcases trunc_exists n with ⟨t, ht⟩ | rfl | rfl | rfl
  · rw [takeCount_eq ht, toUsize_eq ht]; simp
  · rfl
  · rfl
  · exact absurd rfl hn

/-- C32: `LEFT(s, n)` is the first `n` characters: all of them when there are fewer, none when `n` is negative. -/
theorem C32_left (X : Ext) (s : Str) (hs : Fits s) (n : F64) (t : ℤ) (h : TruncatesTo n t) :
    fn X c!"LEFT" [.str s, .num n] = .ok (.str (s.take t.toNat)) := by
  rw [left_eq, takeCount_eq h, take_sat s hs]

/-- C32: `RIGHT(s, n)` is the last `n` characters. -/
theorem C32_right (X : Ext) (s : Str) (hs : Fits s) (n : F64) (t : ℤ) (h : TruncatesTo n t) :
    fn X c!"RIGHT" [.str s, .num n] = .ok (.str (s.drop (s.length - t.toNat))) := by
  unfold Fits at hs
  rw [right_eq, takeCount_eq h]
  congr 3; omega

/-- C32: without a count `LEFT` and `RIGHT` give one character. -/
theorem C32_left_right_default (X : Ext) (s : Str) :
    fn X c!"LEFT" [.str s] = .ok (.str (s.take 1)) ∧ fn X c!"RIGHT" [.str s] = .ok (.str (s.drop (s.length - 1))) := by
  constructor
  · rw [fn_eq X _ _ (by decide), show execFast X c!"LEFT" [.str s] = StrFn.slice s 0 (StrFn.charByteOffset s (StrFn.takeCount (.fin 1))) from rfl]
    simp only [StrFn.slice, StrFn.charByteOffset, slice_from_start]
    rw [show StrFn.takeCount (.fin 1) = 1 by decide +kernel]
  · rw [fn_eq X _ _ (by decide), show execFast X c!"RIGHT" [.str s] =
      StrFn.slice s (StrFn.charByteOffset s (StrFn.charCount s - StrFn.takeCount (.fin 1))) (Str.byteLen s) from rfl]
    rw [show StrFn.takeCount (.fin 1) = 1 by decide +kernel]
    simp only [StrFn.slice, StrFn.charByteOffset, StrFn.charCount, slice_to_end s _ (Nat.sub_le ..)]

/-- C32: `SUBSTRING(s, n)` drops the first `n` characters; `SUBSTRING(s, n, m)` then keeps the first `m` of the rest. -/
theorem C32_substring (X : Ext) (s : Str) (hs : Fits s) (n m : F64) (t u : ℤ) (h : TruncatesTo n t) (hm : TruncatesTo m u) :
    fn X c!"SUBSTRING" [.str s, .num n] = .ok (.str (s.drop t.toNat)) ∧
    fn X c!"SUBSTRING" [.str s, .num n, .num m] = .ok (.str ((s.drop t.toNat).take u.toNat)) := by
  rw [substring_eq1, substring_eq2 X s hs, toUsize_eq h, toUsize_eq hm, drop_sat s hs]
  have : Fits (s.drop t.toNat) := by unfold Fits at *; rw [List.length_drop]; omega
  rw [take_sat _ this]
  exact ⟨rfl, rfl⟩

/-- C32: the method `.substring` does the same. -/
theorem C32_substring_method (X : Ext) (s : Str) (hs : Fits s) (n m : F64) :
    meth1 X (.str s) c!"substring" (.num n) = fn X c!"SUBSTRING" [.str s, .num n] ∧
    meth2 X (.str s) c!"substring" (.num n) (.num m) = fn X c!"SUBSTRING" [.str s, .num n, .num m] := by
  have e : ∀ env args, Method.exec X none env c!"substring" false (.str s) args = Method.substring env s args := fun _ _ => rfl
  rw [meth1_eq, meth2_eq, substring_eq1, substring_eq2 X s hs, e, e]
  constructor
  · simp only [Method.substring, Method.ev, bind, Except.bind]
    rw [arg_var X _ _ c!"a" (.num n) rfl]; rfl
  · simp only [Method.substring, Method.ev, bind, Except.bind]
    rw [arg_var X _ _ c!"a" (.num n) rfl, arg_var X _ _ c!"b" (.num m) rfl]
    simp only [pure, Except.pure]
    split
    · rw [List.drop_take]
      simp only [Except.ok.injEq, Value.str.injEq]
      rw [List.take_eq_take_iff, List.length_drop]
      omega
    · rw [List.drop_of_length_le (by omega)]; simp

theorem floor_toUsize {q : ℚ} {t : ℤ} (h : IsTrunc q t) (hq : 0 < q) : (F64.fin q).floor.toUsize = min t.toNat (2 ^ 64 - 1) := by
  have e : F64.u64Max = 2 ^ 64 - 1 := rfl
  have ht := isTrunc_unique h
  have hf : q.floor = t := by rw [← ht]; unfold F64.truncRat; rw [if_pos hq.le]
  simp only [F64.floor, hf, F64.ofRounded]
  split
  · rename_i h0; subst h0; rfl
  · have : F64.truncRat (t : ℚ) = t := by
      unfold F64.truncRat
      split
      · exact Rat.floor_intCast t
      · rw [show (-(t : ℚ)).floor = -t by rw [← Rat.floor_intCast (-t)]; push_cast; rfl]; omega
    simp only [F64.toUsize, F64.toIntSat, this, e]
    split_ifs <;> omega

/-- The start index of `MID` and `REPLACE`: positions count from 1, anything lower means the first character. -/
theorem midStart_eq {n : F64} {t : ℤ} (h : TruncatesTo n t) :
    (if F64.flt n (.fin 1) then F64.fin 1 else n.floor).toUsize = min (max t 1).toNat (2 ^ 64 - 1) := by
  have one : (F64.fin 1).toUsize = 1 := by decide +kernel
  cases n with
  | nan => exact h.elim
  | inf s => exact h.elim
  | zero s =>
    simp only [TruncatesTo] at h; subst h
    rw [if_pos ((flt_zero_fin _ _).2 (by norm_num)), one]; rfl
  | fin q =>
    have h' : IsTrunc q t := h
    by_cases hq : q < 1
    · rw [if_pos ((flt_fin _ _).2 hq), one]
      have : t ≤ 0 := by
        by_cases hq0 : q ≤ 0
        · exact trunc_nonpos h' hq0
        · obtain ⟨h1, -, -⟩ := h'
          by_contra hc
          have hc' : (1 : ℚ) ≤ t := by exact_mod_cast (by omega : 1 ≤ t)
          rw [abs_of_nonneg (by linarith : (0 : ℚ) ≤ t), abs_of_nonneg (by linarith)] at h1
          linarith
      omega
    · rw [if_neg (by rw [flt_fin]; exact hq), floor_toUsize h' (by linarith)]
      have : 1 ≤ t := by
        obtain ⟨-, h2, h3⟩ := h'
        by_contra hc
        have hc' : (t : ℚ) ≤ 0 := by exact_mod_cast (by omega : t ≤ 0)
        rw [abs_of_nonneg (by linarith : (0 : ℚ) ≤ q), abs_of_nonpos hc'] at h2
        have : (t : ℚ) ≠ 0 ∨ (t : ℚ) = 0 := by tauto
        rcases lt_or_eq_of_le hc' with h0 | h0
        · nlinarith
        · rw [h0] at h2; simp at h2; linarith
      omega

theorem finite_of {n : F64} {t : ℤ} (h : TruncatesTo n t) : n.isFinite = true := by cases n <;> first | rfl | exact h.elim

/-- C32: `MID(s, n)` is the text from the `n`-th character on (counting from 1); `MID(s, n, m)` keeps `m` of these. -/
theorem C32_mid (X : Ext) (s : Str) (hs : Fits s) (n m : F64) (t u : ℤ) (h : TruncatesTo n t) (hm : TruncatesTo m u) :
    fn X c!"MID" [.str s, .num n] = .ok (.str (s.drop ((max t 1).toNat - 1))) ∧
    fn X c!"MID" [.str s, .num n, .num m] = .ok (.str ((s.drop ((max t 1).toNat - 1)).take u.toNat)) := by
  have hn := charCount_eq s
  unfold Fits at hs
  have key : ∀ l, StrFn.midCore s n l = .ok (.str (match l with
      | some m => (s.drop ((max t 1).toNat - 1)).take (StrFn.takeCount m)
      | none => s.drop ((max t 1).toNat - 1))) := by
    intro l
    unfold StrFn.midCore
    simp only [finite_of h, midStart_eq h, if_true, StrFn.satAdd, u64Max_toNat]
    cases l with
    | none =>
      simp only
      split
      · rename_i hc; rw [List.drop_of_length_le (by omega)]
      · simp only [StrFn.slice, StrFn.charByteOffset]
        rw [slice_chars s _ _ (by omega), List.drop_take]
        simp only [Except.ok.injEq, Value.str.injEq]
        rw [show min (min (max t 1).toNat (2 ^ 64 - 1) - 1) (StrFn.charCount s) = (max t 1).toNat - 1 by omega, List.take_of_length_le]
        rw [List.length_drop]; omega
    | some k =>
      simp only
      split
      · rename_i hc
        by_cases h1 : s.length ≤ (max t 1).toNat - 1
        · rw [List.drop_of_length_le h1]; simp
        · rw [show StrFn.takeCount k = 0 by omega]; simp
      · simp only [StrFn.slice, StrFn.charByteOffset]
        rw [slice_chars s _ _ (by omega), List.drop_take]
        simp only [Except.ok.injEq, Value.str.injEq]
        rw [show min (min (max t 1).toNat (2 ^ 64 - 1) - 1) (StrFn.charCount s) = (max t 1).toNat - 1 by omega, List.take_eq_take_iff, List.length_drop]
        omega
  constructor
  · rw [fn_eq X _ _ (by decide), show execFast X c!"MID" [.str s, .num n] = StrFn.midCore s n none from rfl, key]
  · rw [fn_eq X _ _ (by decide), show execFast X c!"MID" [.str s, .num n, .num m] = StrFn.midCore s n (some m) from rfl, key]
    simp only
    rw [takeCount_eq hm, take_sat]
    unfold Fits; rw [List.length_drop]; omega

theorem fmax_floor {n : F64} {t : ℤ} (h : TruncatesTo n t) : (F64.fmax n.floor (.fin 1)).toUsize = min (max t 1).toNat (2 ^ 64 - 1) := by
  rw [← midStart_eq h]
  cases n with
  | nan => exact h.elim
  | inf s => exact h.elim
  | zero s => simp only [F64.floor, F64.fmax]
  | fin q =>
    simp only [F64.floor, F64.ofRounded]
    by_cases hq : q < 1
    · have hf : q.floor ≤ 0 := by
        have : ⌊q⌋ < 1 := Int.floor_lt.2 (by exact_mod_cast hq)
        show ⌊q⌋ ≤ 0; omega
      have hf' : (q.floor : ℚ) < 1 := by exact_mod_cast (by omega : q.floor < 1)
      rw [if_pos ((flt_fin _ _).2 hq)]
      split
      · simp only [F64.fmax]; rw [if_pos ((flt_zero_fin _ _).2 (by norm_num))]
      · simp only [F64.fmax]; rw [if_pos ((flt_fin _ _).2 hf')]
    · have hf : 1 ≤ q.floor := by
        show 1 ≤ ⌊q⌋
        exact Int.le_floor.2 (by push_cast; exact le_of_not_gt hq)
      have hf' : ¬ (q.floor : ℚ) < 1 := by rw [not_lt]; exact_mod_cast hf
      rw [if_neg (by omega : ¬ q.floor = 0), if_neg (by rw [flt_fin]; exact hq)]
      simp only [F64.fmax]
      rw [if_neg (by rw [flt_fin]; exact hf')]

/-- C32: `REPLACE(s, n, m, new)` replaces `m` characters from the `n`-th on (counting from 1) by `new`. -/
theorem C32_replace (X : Ext) (s new : Str) (hs : Fits s) (n m : F64) (t u : ℤ) (h : TruncatesTo n t) (hm : TruncatesTo m u) :
    fn X c!"REPLACE" [.str s, .num n, .num m, .str new] =
      .ok (.str (s.take ((max t 1).toNat - 1) ++ new ++ s.drop ((max t 1).toNat - 1 + u.toNat))) := by
  have hn := charCount_eq s
  unfold Fits at hs
  rw [fn_eq X _ _ (by decide), show execFast X c!"REPLACE" [.str s, .num n, .num m, .str new] = StrFn.replaceCore s n m new from rfl]
  unfold StrFn.replaceCore
  have hk : (if (m.isFinite && F64.fgt m (.zero false)) = true then m.floor.toUsize else 0) = min u.toNat (2 ^ 64 - 1) := by
    rw [← takeCount_eq hm]
    unfold StrFn.takeCount
    split
    · rename_i hc
      cases m with
      | nan => exact hm.elim
      | inf s => exact hm.elim
      | zero s => rfl
      | fin q =>
        have hq : 0 < q := by
          rw [Bool.and_eq_true] at hc
          exact (flt_zero_fin false q).1 hc.2
        rw [floor_toUsize hm hq, toUsize_eq hm]
    · rfl
  simp only [finite_of h, fmax_floor h, hk, if_true, StrFn.satAdd, u64Max_toNat, StrFn.charByteOffset]
  rw [slice_from_start, slice_to_end _ _ (by omega)]
  simp only
  congr 3
  · congr 1
    rw [List.take_eq_take_iff]; omega
  · rw [hn]
    by_cases hc : s.length ≤ (max t 1).toNat - 1 + u.toNat
    · rw [List.drop_of_length_le hc, List.drop_of_length_le (by omega)]
    · congr 1; omega

/-- C32: none of these functions panics, whatever its arguments. -/
theorem C32_no_panic (X : Ext) (name : Str) (hname : name ∈ [c!"LEFT", c!"RIGHT", c!"MID", c!"SUBSTRING", c!"REPLACE"]) (vs : List Value)
    (w : String) : fn X name vs ≠ panics w := by
  have hsl : ∀ (s : Str) (i j : ℕ), i ≤ j → StrFn.slice s (Str.byteOffset s i) (Str.byteOffset s j) ≠ panics w := by
    intro s i j hij; simp [StrFn.slice, slice_chars s i j hij, panics]
  have hcount : ∀ e a, ∀ k : F64 → Res Value, (∀ n, k n ≠ panics w) → (StrFn.countArg e a >>= k) ≠ panics w := by
    intro e a k hk
    rcases a with _ | v
    · exact hk _
    · cases v <;> first | exact hk _ | (intro h; injection h with h; injection h)
  have hfail : ∀ e, (fail e : Res Value) ≠ panics w := by intro e h; injection h with h; injection h
  simp only [List.mem_cons, List.not_mem_nil, or_false] at hname
  rcases hname with rfl | rfl | rfl | rfl | rfl
  · rw [fn_eq X _ _ (by decide), show execFast X c!"LEFT" vs = StrFn.left vs from rfl]
    unfold StrFn.left
    split
    · exact hfail _
    · split
      · refine hcount _ _ _ fun n => ?_
        simp [StrFn.slice, StrFn.charByteOffset, slice_from_start, panics]
      · exact hfail _
  · rw [fn_eq X _ _ (by decide), show execFast X c!"RIGHT" vs = StrFn.right vs from rfl]
    unfold StrFn.right
    split
    · exact hfail _
    · split
      · refine hcount _ _ _ fun n => ?_
        simp [StrFn.slice, StrFn.charByteOffset, StrFn.charCount, slice_to_end _ _ (Nat.sub_le ..), panics]
      · exact hfail _
  · rw [fn_eq X _ _ (by decide), show execFast X c!"MID" vs = StrFn.mid vs from rfl]
    have hm : ∀ s n l, StrFn.midCore s n l ≠ panics w := by
      intro s n l
      unfold StrFn.midCore
      extract_lets total s1 si ei
      by_cases hc : si ≥ total ∨ si ≥ ei
      · rw [if_pos hc]; simp [panics]
      · rw [if_neg hc]; exact hsl _ _ _ (by omega)
    unfold StrFn.mid
    repeat' split
    all_goals first | exact hfail _ | exact hm _ _ _
  · rw [fn_eq X _ _ (by decide), show execFast X c!"SUBSTRING" vs = StrFn.substring vs from rfl]
    have hm : ∀ s n l, StrFn.substringCore s n l ≠ panics w := by
      intro s n l
      unfold StrFn.substringCore
      simp only
      split
      · simp [panics]
      · exact hsl _ _ _ (le_max_right _ _)
    unfold StrFn.substring
    repeat' split
    all_goals first | exact hfail _ | exact hm _ _ _
  · rw [fn_eq X _ _ (by decide), show execFast X c!"REPLACE" vs = StrFn.replace vs from rfl]
    have hm : ∀ s n m l, StrFn.replaceCore s n m l ≠ panics w := by
      intro s n m l
      unfold StrFn.replaceCore
      extract_lets len st si tk ei
      have : ei ≤ s.length := min_le_right _ _
      simp only [StrFn.charByteOffset]
      rw [slice_from_start, slice_to_end _ _ this]
      simp [panics]
    unfold StrFn.replace
    repeat' split
    all_goals first | exact hfail _ | exact hm _ _ _ _

example (X : Ext) : evaluate X c!"MID(\"añb→c\", 2, 3)" = .ok (.str c!"ñb→") := by kernel_rfl
example : Fits c!"añb→c" ∧ TruncatesTo (.fin (5 / 2)) 2 := by
  refine ⟨by decide, ?_⟩
  simp only [TruncatesTo, IsTrunc]; norm_num [abs_of_pos]

/-! ### C33 -/

theorem fn_concat (X : Ext) (vs : List Value) : fn X c!"CONCAT" vs = .ok (.str (StrFn.concatTexts X vs)) := by
  rw [fn_eq X _ vs (by decide)]; rfl

theorem concatTexts_append (X : Ext) (vs ws : List Value) : StrFn.concatTexts X (vs ++ ws) = StrFn.concatTexts X vs ++ StrFn.concatTexts X ws := by
  induction vs with
  | nil => rfl
  | cons v vs ih => simp [StrFn.concatTexts, ih]

/-- C33: `CONCAT` of strings is their concatenation. -/
theorem C33_concat_strings (X : Ext) (ss : List Str) : fn X c!"CONCAT" (ss.map .str) = .ok (.str ss.flatten) := by
  rw [fn_concat]
  congr 2
  induction ss with
  | nil => rfl
  | cons s ss ih => simp [StrFn.concatTexts, StrFn.concatText, ih]

/-- C33: `CONCAT` of any values always succeeds; grouping arguments, by nested calls or in arrays, does not matter. -/
theorem C33_concat_grouping (X : Ext) (us vs ws : List Value) :
    ∃ v : Str, fn X c!"CONCAT" vs = .ok (.str v) ∧ fn X c!"CONCAT" (us ++ .str v :: ws) = fn X c!"CONCAT" (us ++ vs ++ ws) ∧
      fn X c!"CONCAT" (us ++ .arr vs :: ws) = fn X c!"CONCAT" (us ++ vs ++ ws) := by
  refine ⟨_, fn_concat X vs, ?_, ?_⟩
  · simp [fn_concat, concatTexts_append, StrFn.concatTexts, StrFn.concatText]
  · simp [fn_concat, concatTexts_append, StrFn.concatTexts, StrFn.concatText]

theorem fn_length (X : Ext) (s : Str) : fn X c!"LENGTH" [.str s] = .ok (.num (F64.ofNat s.length)) := by
  rw [fn_eq X _ _ (by decide)]; rfl

theorem add_ofNat (a b : ℕ) (h : a + b ≤ 2 ^ 53) : F64.add (F64.ofNat a) (F64.ofNat b) = F64.ofNat (a + b) := by
  unfold F64.ofNat
  have e : ∀ k : ℕ, k ≤ 2 ^ 53 → F64.ofInt (k : ℤ) = F64.ofIntExact k := fun k hk =>
    F64.ofInt_exact _ (by rw [abs_of_nonneg (by omega)]; exact_mod_cast hk)
  by_cases ha : a = 0
  · subst ha
    rw [e 0 (by omega), e b (by omega), Nat.zero_add, e b (by omega)]
    by_cases hb : b = 0
    · subst hb; rfl
    · have : ¬ ((b : ℤ) = 0) := by exact_mod_cast hb
      simp [F64.ofIntExact, F64.add, hb]
  by_cases hb : b = 0
  · subst hb
    rw [e 0 (by omega), e a (by omega), Nat.add_zero, e a (by omega)]
    simp [F64.ofIntExact, F64.add, ha]
  rw [e a (by omega), e b (by omega)]
  simp only [F64.ofIntExact]
  rw [if_neg (by exact_mod_cast ha), if_neg (by exact_mod_cast hb)]
  simp only [F64.add, F64.ofInt]
  congr 1
  push_cast; rfl

/-- C33: `LENGTH` is the number of characters, and adds up. -/
theorem C33_length (X : Ext) (a b : Str) (h : a.length + b.length ≤ 2 ^ 53) :
    ∃ c : Str, ∃ x y : F64, fn X c!"CONCAT" [.str a, .str b] = .ok (.str c) ∧ fn X c!"LENGTH" [.str a] = .ok (.num x) ∧
      fn X c!"LENGTH" [.str b] = .ok (.num y) ∧ fn X c!"LENGTH" [.str c] = .ok (.num (F64.add x y)) := by
  refine ⟨a ++ b, _, _, ?_, fn_length X a, fn_length X b, ?_⟩
  · have := C33_concat_strings X [a, b]; simpa using this
  · rw [fn_length, add_ofNat _ _ h, List.length_append]

/-! ### C34 -/

/-- C34 fails: the method counts bytes. -/
theorem C34_length_differs (X : Ext) :
    evaluate X c!"LENGTH(\"é\")" = .ok (.num (F64.ofNat 1)) ∧ evaluate X c!"\"é\".length()" = .ok (.num (F64.ofNat 2)) :=
  ⟨by kernel_rfl, by kernel_rfl⟩

theorem byteLen_ascii (s : Str) (h : ∀ c ∈ s, c.val < 0x80) : Str.byteLen s = s.length := by
  induction s with
  | nil => rfl
  | cons c s ih =>
    rw [Str.byteLen, ih (fun d hd => h d (by simp [hd])), Str.width, if_pos (h c (by simp)), List.length_cons]; omega

/-- C34, partial: the forms agree exactly on ASCII texts. Missing: all others, where they differ. -/
theorem C34_length_partial (X : Ext) (s : Str) (h : ∀ c ∈ s, c.val < 0x80) :
    fn X c!"LENGTH" [.str s] = .ok (.num (F64.ofNat s.length)) ∧ meth0 X (.str s) c!"length" = .ok (.num (F64.ofNat s.length)) := by
  refine ⟨fn_length X s, ?_⟩
  rw [meth0_eq, ← byteLen_ascii s h]; rfl

/-- C34: on arrays both forms count the elements. -/
theorem C34_length_arrays (X : Ext) (items : List Value) :
    fn X c!"LENGTH" [.arr items] = .ok (.num (F64.ofNat items.length)) ∧ meth0 X (.arr items) c!"length" = .ok (.num (F64.ofNat items.length)) := by
  refine ⟨?_, ?_⟩
  · rw [fn_eq X _ _ (by decide)]; rfl
  · rw [meth0_eq]; rfl
