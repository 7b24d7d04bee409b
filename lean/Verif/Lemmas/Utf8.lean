import Verif.Model.HttpRead
/-! The decoder of the model agrees with the UTF-8 encoding. -/

namespace HttpRead

theorem char_val {n : Nat} (h : n.isValidChar) : (Char.ofNat n).val.toNat = n := by
  unfold Char.ofNat
  rw [dif_pos h]
  rfl

theorem byte_eq {a : UInt8} {n : Nat} (h : a.toNat = n) : UInt8.ofNat n = a := by
  rw [← h]
  exact UInt8.ofNat_toNat

theorem byte_lt (a : UInt8) : a.toNat < 256 := a.toNat_lt

/-- A successful step gives the character encoded by the bytes it takes. -/
theorem decode1_encode {a : UInt8} {rest : Bytes} {c : Char} {n : Nat} (h : decode1 a rest = (some c, n)) :
    0 < n ∧ a :: rest = String.utf8EncodeChar c ++ rest.drop (n - 1) ∧ (String.utf8EncodeChar c).length = n := by
  have ha := byte_lt a
  unfold decode1 at h
  simp only at h
  by_cases h1 : a.toNat < 0x80
  · rw [if_pos h1] at h
    obtain ⟨rfl, rfl⟩ := by simpa using h
    refine ⟨by omega, ?_⟩
    unfold String.utf8EncodeChar
    simp only [char_val (n := a.toNat) (by unfold Nat.isValidChar; omega)]
    rw [if_pos (by omega)]
    simp
  rw [if_neg h1] at h
  by_cases h2 : within a 0xC2 0xDF = true
  · rw [if_pos h2] at h
    cases rest with
    | nil => simp [next] at h
    | cons b rest =>
      have hb := byte_lt b
      by_cases h3 : next (0x80, 0xBF) (b :: rest) = true
      · rw [if_pos h3] at h
        simp only [next, within, Bool.and_eq_true, decide_eq_true_eq] at h2 h3
        simp only [List.getD_cons_zero, six, Prod.mk.injEq, Option.some.injEq] at h
        obtain ⟨rfl, rfl⟩ := h
        refine ⟨by omega, ?_⟩
        unfold String.utf8EncodeChar
        simp only [char_val (n := (a.toNat % 32) * 64 + b.toNat % 64) (by unfold Nat.isValidChar; omega)]
        rw [if_neg (by omega), if_pos (by omega)]
        rw [byte_eq (a := a) (by omega), byte_eq (a := b) (by omega)]
        simp
      · rw [if_neg h3] at h
        simp at h
  rw [if_neg h2] at h
  by_cases h3 : within a 0xE0 0xEF = true
  · rw [if_pos h3] at h
    by_cases h4 : next (second a) rest = true
    · rw [if_pos h4] at h
      by_cases h5 : next (0x80, 0xBF) (rest.drop 1) = true
      · rw [if_pos h5] at h
        rcases rest with _ | ⟨b, _ | ⟨b2, rest⟩⟩
        · simp [next] at h4
        · simp [next] at h5
        · skip
          have hb := byte_lt b
          have hb2 := byte_lt b2
          simp only [next, within, List.drop_succ_cons, List.drop_zero, Bool.and_eq_true, decide_eq_true_eq] at h3 h4 h5
          simp only [List.getD_cons_zero, List.getD_cons_succ, six, Prod.mk.injEq, Option.some.injEq] at h
          obtain ⟨rfl, rfl⟩ := h
          have hs : 0x80 ≤ b.toNat ∧ b.toNat ≤ 0xBF ∧ (a.toNat = 0xE0 → 0xA0 ≤ b.toNat) ∧ (a.toNat = 0xED → b.toNat ≤ 0x9F) := by
            unfold second at h4
            by_cases e1 : a.toNat = 0xE0
            · simp [e1] at h4; omega
            by_cases e2 : a.toNat = 0xED
            · simp [e2] at h4; omega
            rw [if_neg e1, if_neg e2, if_neg (by omega), if_neg (by omega)] at h4
            simp only at h4
            omega
          refine ⟨by omega, ?_⟩
          unfold String.utf8EncodeChar
          simp only [char_val (n := (a.toNat % 16) * 4096 + b.toNat % 64 * 64 + b2.toNat % 64) (by unfold Nat.isValidChar; omega)]
          rw [if_neg (by omega), if_neg (by omega), if_pos (by omega)]
          rw [byte_eq (a := a) (by omega), byte_eq (a := b) (by omega), byte_eq (a := b2) (by omega)]
          simp
      · rw [if_neg h5] at h
        simp at h
    · rw [if_neg h4] at h
      simp at h
  rw [if_neg h3] at h
  by_cases h4 : within a 0xF0 0xF4 = true
  · rw [if_pos h4] at h
    by_cases h5 : next (second a) rest = true
    · rw [if_pos h5] at h
      by_cases h6 : next (0x80, 0xBF) (rest.drop 1) = true
      · rw [if_pos h6] at h
        by_cases h7 : next (0x80, 0xBF) (rest.drop 2) = true
        · rw [if_pos h7] at h
          rcases rest with _ | ⟨b, _ | ⟨b2, _ | ⟨b3, rest⟩⟩⟩
          · simp [next] at h5
          · simp [next] at h6
          · simp [next] at h7
          · skip
            have hb := byte_lt b
            have hb2 := byte_lt b2
            have hb3 := byte_lt b3
            simp only [next, within, List.drop_succ_cons, List.drop_zero, Bool.and_eq_true, decide_eq_true_eq] at h4 h5 h6 h7
            simp only [List.getD_cons_zero, List.getD_cons_succ, six, Prod.mk.injEq, Option.some.injEq] at h
            obtain ⟨rfl, rfl⟩ := h
            have hs : 0x80 ≤ b.toNat ∧ b.toNat ≤ 0xBF ∧ (a.toNat = 0xF0 → 0x90 ≤ b.toNat) ∧ (a.toNat = 0xF4 → b.toNat ≤ 0x8F) := by
              unfold second at h5
              rw [if_neg (by omega), if_neg (by omega)] at h5
              by_cases e1 : a.toNat = 0xF0
              · simp [e1] at h5; omega
              by_cases e2 : a.toNat = 0xF4
              · simp [e2] at h5; omega
              rw [if_neg e1, if_neg e2] at h5
              simp only at h5
              omega
            refine ⟨by omega, ?_⟩
            unfold String.utf8EncodeChar
            simp only [char_val (n := (a.toNat % 8) * 262144 + b.toNat % 64 * 4096 + b2.toNat % 64 * 64 + b3.toNat % 64)
              (by unfold Nat.isValidChar; omega)]
            rw [if_neg (by omega), if_neg (by omega), if_neg (by omega)]
            rw [byte_eq (a := a) (by omega), byte_eq (a := b) (by omega), byte_eq (a := b2) (by omega), byte_eq (a := b3) (by omega)]
            simp
        · rw [if_neg h7] at h
          simp at h
      · rw [if_neg h6] at h
        simp at h
    · rw [if_neg h5] at h
      simp at h
  · rw [if_neg h4] at h
    simp at h

theorem decodeGo_skip (n : Nat) (bs : Bytes) : decodeGo n bs = decodeGo 0 (bs.drop n) := by
  induction n generalizing bs with
  | zero => rfl
  | succ n ih =>
    cases bs with
    | nil => rfl
    | cons b bs => simp [decodeGo, ih]

theorem mapM_id_cons {x : Option Char} {xs : List (Option Char)} {s : Str} (h : (x :: xs).mapM id = some s) :
    ∃ c s', x = some c ∧ xs.mapM id = some s' ∧ s = c :: s' := by
  simp only [List.mapM_cons, id] at h
  cases x with
  | none => simp at h
  | some c =>
    cases h2 : xs.mapM id with
    | none => rw [h2] at h; simp at h
    | some s' =>
      rw [h2] at h
      exact ⟨c, s', rfl, rfl, by simpa using h.symm⟩

/-- Decoded text encodes to the bytes it came from. -/
theorem utf8_encode {bs : Bytes} {s : Str} (h : utf8 bs = some s) : s.flatMap String.utf8EncodeChar = bs := by
  unfold utf8 at h
  induction hn : bs.length using Nat.strongRecOn generalizing bs s with
  | _ n ih =>
    cases bs with
    | nil =>
      simp [decodeGo] at h
      simp [h]
    | cons b bs =>
      simp only [decodeGo] at h
      obtain ⟨c, s', hc, hs', rfl⟩ := mapM_id_cons h
      obtain ⟨hn0, e, _⟩ := decode1_encode (a := b) (rest := bs) (c := c) (n := (decode1 b bs).2) (by rw [← hc])
      rw [decodeGo_skip] at hs'
      have := ih (bs.drop ((decode1 b bs).2 - 1)).length (by simp at hn ⊢; omega) hs' rfl
      rw [List.flatMap_cons, this, ← e]

/-- The bytes of one character decode to it. -/
theorem decode1_of_encode (c : Char) (rest : Bytes) :
    ∃ a bs, String.utf8EncodeChar c ++ rest = a :: (bs ++ rest) ∧ (String.utf8EncodeChar c) = a :: bs ∧
      decode1 a (bs ++ rest) = (some c, bs.length + 1) := by
  have hv : c.val.toNat.isValidChar := c.valid
  have hc : Char.ofNat c.val.toNat = c := Char.ofNat_toNat c
  unfold Nat.isValidChar at hv
  have of_lt : ∀ n, n < 256 → (UInt8.ofNat n).toNat = n := fun n h => by simp [UInt8.toNat_ofNat', Nat.mod_eq_of_lt h]
  unfold String.utf8EncodeChar
  simp only
  generalize hV : c.val.toNat = v at *
  by_cases h1 : v ≤ 127
  · rw [if_pos h1]
    refine ⟨UInt8.ofNat v, [], rfl, rfl, ?_⟩
    unfold decode1
    simp only [of_lt v (by omega)]
    rw [if_pos (by omega), hc]
    rfl
  rw [if_neg h1]
  by_cases h2 : v ≤ 2047
  · rw [if_pos h2]
    refine ⟨_, [_], rfl, rfl, ?_⟩
    unfold decode1
    simp only [List.cons_append, List.nil_append, List.getD_cons_zero, next, within, six, of_lt (v / 64 % 32 + 192) (by omega), of_lt (v % 64 + 128) (by omega)]
    rw [if_neg (by omega), if_pos (by simp only [Bool.and_eq_true, decide_eq_true_eq]; omega), if_pos (by simp only [Bool.and_eq_true, decide_eq_true_eq]; omega)]
    rw [show (v / 64 % 32 + 192) % 32 * 64 + (v % 64 + 128) % 64 = v by omega, hc]
    rfl
  rw [if_neg h2]
  by_cases h3 : v ≤ 65535
  · rw [if_pos h3]
    refine ⟨_, [_, _], rfl, rfl, ?_⟩
    unfold decode1 second
    simp only [List.cons_append, List.nil_append, List.getD_cons_zero, List.getD_cons_succ, List.drop_succ_cons, List.drop_zero,
      next, within, six, of_lt (v / 4096 % 16 + 224) (by omega), of_lt (v / 64 % 64 + 128) (by omega), of_lt (v % 64 + 128) (by omega)]
    rw [if_neg (by omega), if_neg (by simp only [Bool.and_eq_true, decide_eq_true_eq]; omega), if_pos (by simp only [Bool.and_eq_true, decide_eq_true_eq]; omega)]
    rw [if_pos (by
      simp only [Bool.and_eq_true, decide_eq_true_eq]
      by_cases e1 : v / 4096 % 16 + 224 = 0xE0
      · simp only [e1, if_true]; omega
      · by_cases e2 : v / 4096 % 16 + 224 = 0xED
        · rw [if_neg e1, if_pos e2]; simp only; omega
        · rw [if_neg e1, if_neg e2, if_neg (by omega), if_neg (by omega)]; simp only; omega)]
    rw [if_pos (by simp only [Bool.and_eq_true, decide_eq_true_eq]; omega)]
    rw [show (v / 4096 % 16 + 224) % 16 * 4096 + (v / 64 % 64 + 128) % 64 * 64 + (v % 64 + 128) % 64 = v by omega, hc]
    rfl
  rw [if_neg h3]
  refine ⟨_, [_, _, _], rfl, rfl, ?_⟩
  unfold decode1 second
  simp only [List.cons_append, List.nil_append, List.getD_cons_zero, List.getD_cons_succ, List.drop_succ_cons, List.drop_zero,
    next, within, six, of_lt (v / 262144 % 8 + 240) (by omega), of_lt (v / 4096 % 64 + 128) (by omega), of_lt (v / 64 % 64 + 128) (by omega), of_lt (v % 64 + 128) (by omega)]
  rw [if_neg (by omega), if_neg (by simp only [Bool.and_eq_true, decide_eq_true_eq]; omega), if_neg (by simp only [Bool.and_eq_true, decide_eq_true_eq]; omega), if_pos (by simp only [Bool.and_eq_true, decide_eq_true_eq]; omega)]
  rw [if_pos (by
    simp only [Bool.and_eq_true, decide_eq_true_eq]
    rw [if_neg (by omega), if_neg (by omega)]
    by_cases e1 : v / 262144 % 8 + 240 = 0xF0
    · rw [if_pos e1]; simp only; omega
    · by_cases e2 : v / 262144 % 8 + 240 = 0xF4
      · rw [if_neg e1, if_pos e2]; simp only; omega
      · rw [if_neg e1, if_neg e2]; simp only; omega)]
  rw [if_pos (by simp only [Bool.and_eq_true, decide_eq_true_eq]; omega), if_pos (by simp only [Bool.and_eq_true, decide_eq_true_eq]; omega)]
  rw [show (v / 262144 % 8 + 240) % 8 * 262144 + (v / 4096 % 64 + 128) % 64 * 4096 + (v / 64 % 64 + 128) % 64 * 64 + (v % 64 + 128) % 64 = v by omega, hc]
  rfl

theorem decodeGo_encode (s : Str) : decodeGo 0 (s.flatMap String.utf8EncodeChar) = s.map some := by
  induction s with
  | nil => rfl
  | cons c s ih =>
    obtain ⟨a, bs, e1, e2, e3⟩ := decode1_of_encode c (s.flatMap String.utf8EncodeChar)
    rw [List.flatMap_cons, e1]
    simp only [decodeGo, e3]
    rw [decodeGo_skip]
    simp [ih]

/-- Every text comes back from its bytes. -/
theorem utf8_of_encode (s : Str) : utf8 (s.flatMap String.utf8EncodeChar) = some s := by
  unfold utf8
  rw [decodeGo_encode]
  induction s with
  | nil => rfl
  | cons c s ih => simp [ih]

theorem utf8Lossy_of_encode (s : Str) : utf8Lossy (s.flatMap String.utf8EncodeChar) = s := by
  unfold utf8Lossy
  rw [decodeGo_encode, List.map_map]
  exact List.map_id s

theorem encode_ascii {c : Char} (h : Str.isAscii c = true) : String.utf8EncodeChar c = [UInt8.ofNat c.toNat] := by
  have : c.val.toNat < 128 := by
    simp only [Str.isAscii, decide_eq_true_eq] at h
    exact UInt32.lt_iff_toNat_lt.1 h
  unfold String.utf8EncodeChar
  simp only
  rw [if_pos (by omega)]
  rfl

/-- The length in bytes of one character. -/
theorem encode_length (c : Char) : (String.utf8EncodeChar c).length = Str.width c := by
  unfold String.utf8EncodeChar Str.width
  simp only
  have : ∀ n : UInt32, (c.val < n ↔ c.val.toNat < n.toNat) := fun n => UInt32.lt_iff_toNat_lt
  simp only [this]
  simp only [show (0x80 : UInt32).toNat = 128 from rfl, show (0x800 : UInt32).toNat = 2048 from rfl, show (0x10000 : UInt32).toNat = 65536 from rfl]
  by_cases h1 : c.val.toNat ≤ 127
  · rw [if_pos h1, if_pos (by omega)]; rfl
  by_cases h2 : c.val.toNat ≤ 2047
  · rw [if_neg h1, if_pos h2, if_neg (by omega), if_pos (by omega)]; rfl
  by_cases h3 : c.val.toNat ≤ 65535
  · rw [if_neg h1, if_neg h2, if_pos h3, if_neg (by omega), if_neg (by omega), if_pos (by omega)]; rfl
  · rw [if_neg h1, if_neg h2, if_neg h3, if_neg (by omega), if_neg (by omega), if_neg (by omega)]; rfl

theorem encode_byteLen (s : Str) : (s.flatMap String.utf8EncodeChar).length = Str.byteLen s := by
  induction s with
  | nil => rfl
  | cons c s ih => rw [List.flatMap_cons, List.length_append, encode_length, ih]; rfl

end HttpRead
