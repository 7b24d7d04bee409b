import Verif.Props.HttpForms
import Verif.Props.HttpAuth
import Verif.Props.CacheKeys
import Verif.Lemmas.Utf8
/-! C101: the query of a GET evaluation. -/

open Http Spec

namespace HttpQuery

/-- A hexadecimal digit. -/
def Spec.hexDigit (n : Nat) : Char := (c!"0123456789ABCDEF").getD n '0'

/-- The characters a percent encoding leaves as they are (RFC 3986, section 2.3). -/
def Spec.unreserved (c : Char) : Bool := c.isAlphanum || c == '-' || c == '_' || c == '.' || c == '~'

/-- Percent encoding (RFC 3986, section 2.1): every other character is sent as its UTF-8 bytes, each as `%` and two digits. -/
def Spec.pctEncode (s : Str) : Str :=
  s.flatMap fun c => if unreserved c then [c] else (String.utf8EncodeChar c).flatMap fun b => ['%', hexDigit (b.toNat / 16), hexDigit (b.toNat % 16)]

/-- A parameter name that needs no encoding (names are never decoded). -/
def Spec.PlainKey (k : Str) : Prop := ∀ c ∈ k, c ≠ '&' ∧ c ≠ '=' ∧ Str.isWs c = false

/-- A parameter as it is sent: a name, alone or with a value. -/
def Spec.paramText (p : Str × Option Str) : Str :=
  match p.2 with
  | none => p.1
  | some v => p.1 ++ c!"=" ++ pctEncode v

/-- A hexadecimal digit, large or small. -/
def Spec.IsDigit (n : Nat) (d : Char) : Prop := (c!"0123456789ABCDEF")[n]? = some d ∨ (c!"0123456789abcdef")[n]? = some d

/-- Bytes, each sent as `%` and two digits. -/
inductive Spec.BytesSent : List UInt8 → Str → Prop where
  | nil : BytesSent [] []
  | cons {b : UInt8} {bs : List UInt8} {d e : Char} {t : Str} :
      IsDigit (b.toNat / 16) d → IsDigit (b.toNat % 16) e → BytesSent bs t → BytesSent (b :: bs) ('%' :: d :: e :: t)

/-- The text is one of the ways to send the value: each character as it is, unless it is `%`, `&` or a blank, or as its UTF-8 bytes with large or small digits. -/
inductive Spec.Encodes : Str → Str → Prop where
  | nil : Encodes [] []
  | plain {c : Char} {v t : Str} : c ≠ '%' → c ≠ '&' → Str.isWs c = false → Encodes v t → Encodes (c :: v) (c :: t)
  | bytes {c : Char} {v b t : Str} : BytesSent (String.utf8EncodeChar c) b → Encodes v t → Encodes (c :: v) (b ++ t)

/-- The text is a way to send the parameter: a name, alone or with an encoded value. -/
inductive Spec.Param : Str × Option Str → Str → Prop where
  | alone {k : Str} : PlainKey k → Param (k, none) k
  | value {k v t : Str} : PlainKey k → Encodes v t → Param (k, some v) (k ++ c!"=" ++ t)

/-- The request of a client that sends these parameters, its further header lines being in `rest`. -/
def Spec.getWith (ts : List Str) (rest : Str) : Str :=
  c!"GET /eval?" ++ c!"&".intercalate ts ++ c!" HTTP/1.1\r\n" ++ rest

/-- The request of a client that sends every character that needs no encoding as it is, and the others with large digits. -/
def Spec.getRequest (ps : List (Str × Option Str)) (rest : Str) : Str := getWith (ps.map paramText) rest

/-- The parameters that have a value. -/
def Spec.given (ps : List (Str × Option Str)) : List (Str × Str) := ps.filterMap fun p => p.2.map fun v => (p.1, v)

/-- The value of the last parameter with one of these names. -/
def Spec.lastGiven (names : List Str) : List (Str × Str) → Option Str
  | [] => none
  | (k, v) :: ps => match lastGiven names ps with
    | some w => some w
    | none => if k ∈ names then some v else none

/-- The names that are not variables. -/
def Spec.reserved : List Str := [c!"expr", c!"expression", c!"output_json", c!"include_variables"]

/-- What a value of the query arrives as: a number if Rust reads it as a float (`null` if that is not finite), a boolean, or a text. -/
inductive Spec.Arrives (v : Str) : Json → Prop where
  | number (x : F64) : F64.parse v = some x → x.isFinite = true → Arrives v (.num (.float x))
  | notFinite (x : F64) : F64.parse v = some x → x.isFinite = false → Arrives v .null
  | yes : v = c!"true" → Arrives v (.bool true)
  | no : v = c!"false" → Arrives v (.bool false)
  | text : F64.parse v = none → v ≠ c!"true" → v ≠ c!"false" → Arrives v (.str v)

/-- `inc` is the choice of variables to report that the text `v` stands for: all, none, or those listed, separated by commas, blanks and one colon before a name being dropped. -/
inductive Spec.Chooses (v : Str) : Include → Prop where
  | all : v = c!"true" → Chooses v .all
  | no : v = c!"false" → Chooses v .none
  | blank : (∀ c ∈ v, c = ',' ∨ Str.isWs c = true) → Chooses v .none
  | listed (items : List (Str × Bool × Str × Str)) :
      v ≠ c!"true" → v ≠ c!"false" → items ≠ [] →
      (∀ i ∈ items, (∀ c ∈ i.1, Str.isWs c = true) ∧ (∀ c ∈ i.2.2.2, Str.isWs c = true) ∧ i.2.2.1 ≠ [] ∧ ∀ c ∈ i.2.2.1, c ≠ ',' ∧ c ≠ ':' ∧ Str.isWs c = false) →
      v = c!",".intercalate (items.map fun i => i.1 ++ (if i.2.1 then c!":" else []) ++ i.2.2.1 ++ i.2.2.2) →
      Chooses v (.selected (items.map fun i => i.2.2.1))

/-- `q` is the evaluation these parameters ask for. -/
structure Spec.Asks (ps : List (Str × Str)) (q : EvalRequest) : Prop where
  expression : lastGiven [c!"expr", c!"expression"] ps = some q.expression
  outputJson : q.outputJson = some true ↔ lastGiven [c!"output_json"] ps = some c!"true"
  outputGiven : q.outputJson ≠ none
  includeDefault : lastGiven [c!"include_variables"] ps = none → q.includeVariables = some .none
  includeGiven : ∀ v inc, lastGiven [c!"include_variables"] ps = some v → Chooses v inc → q.includeVariables = some inc
  once : ((q.arguments.getD []).map (·.1)).Nodup
  given : ∀ k v, k ∉ reserved → lastGiven [k] ps = some v → ∃ j, (k, j) ∈ q.arguments.getD [] ∧ Arrives v j
  only : ∀ k j, (k, j) ∈ q.arguments.getD [] → k ∉ reserved ∧ ∃ v, lastGiven [k] ps = some v ∧ Arrives v j

open HttpQuery.Spec

/-! Encoded values. -/

theorem hexDigit_alphanum (n : Nat) (h : n < 16) : (hexDigit n).isAlphanum = true := by
  have : ∀ n : Fin 16, (hexDigit n).isAlphanum = true := by decide
  exact this ⟨n, h⟩

theorem pct_mem (v : Str) (c : Char) (h : c ∈ pctEncode v) : c = '%' ∨ unreserved c = true := by
  unfold pctEncode at h
  rw [List.mem_flatMap] at h
  obtain ⟨d, -, h⟩ := h
  split at h
  · rename_i hd
    rw [List.mem_singleton] at h
    exact .inr (h ▸ hd)
  · rw [List.mem_flatMap] at h
    obtain ⟨b, -, h⟩ := h
    have hb : b.toNat < 256 := b.toNat_lt
    simp only [List.mem_cons, List.not_mem_nil, or_false] at h
    rcases h with h | h | h
    · exact .inl h
    · right; unfold unreserved; rw [h, hexDigit_alphanum _ (by omega)]; rfl
    · right; unfold unreserved; rw [h, hexDigit_alphanum _ (by omega)]; rfl

theorem alphanum_ws (c : Char) (h : c.isAlphanum = true) : Str.isWs c = false := by
  simp only [Char.isAlphanum, Char.isAlpha, Char.isUpper, Char.isLower, Char.isDigit, Bool.or_eq_true, Bool.and_eq_true, decide_eq_true_eq] at h
  simp only [Str.isWs, Bool.or_eq_false_iff, Bool.and_eq_false_iff, decide_eq_false_iff_not, beq_eq_false_iff_ne, ne_eq]
  simp only [← UInt32.toNat_inj, UInt32.le_iff_toNat_le, ge_iff_le] at h ⊢
  simp at h ⊢
  omega

theorem pct_plain (v : Str) (c : Char) (h : c ∈ pctEncode v) : c ≠ '&' ∧ c ≠ '=' ∧ Str.isWs c = false := by
  rcases pct_mem v c h with rfl | h
  · decide
  · refine ⟨?_, ?_, ?_⟩
    · rintro rfl; revert h; decide
    · rintro rfl; revert h; decide
    · unfold unreserved at h
      simp only [Bool.or_eq_true, beq_iff_eq] at h
      rcases h with (((h | rfl) | rfl) | rfl) | rfl
      · exact alphanum_ws c h
      all_goals decide

/-! The request line. -/

theorem splitWsGo_word : ∀ (w acc : Str), (∀ c ∈ w, Str.isWs c = false) → ∀ (d : Char) (s : Str), Str.isWs d = true → w ++ acc ≠ [] →
    Str.splitWsGo acc (w ++ d :: s) = (acc.reverse ++ w) :: Str.splitWsGo [] s
  | [], acc, _, d, s, hd, hne => by
    have : acc ≠ [] := by simpa using hne
    simp [Str.splitWsGo, hd, this]
  | c :: w, acc, h, d, s, hd, _ => by
    simp only [List.cons_append, Str.splitWsGo, h c (by simp), Bool.false_eq_true, if_false]
    rw [splitWsGo_word w (c :: acc) (fun x hx => h x (by simp [hx])) d s hd (by simp)]
    simp

theorem intercalate_join (d : Str) : ∀ l : List Str, d.intercalate l = Str.join d l
  | [] => rfl
  | [a] => by simp [Str.join, List.intercalate]
  | a :: b :: l => by
    have := intercalate_join d (b :: l)
    simp only [List.intercalate, List.intersperse, List.flatten_cons, Str.join] at this ⊢
    rw [this]
    simp

theorem mem_join {d : Str} {c : Char} : ∀ {l : List Str}, c ∈ Str.join d l → c ∈ d ∨ ∃ p ∈ l, c ∈ p
  | [], h => by simp [Str.join] at h
  | [a], h => .inr ⟨a, by simp, by simpa [Str.join] using h⟩
  | a :: b :: l, h => by
    simp only [Str.join, List.mem_append] at h
    rcases h with (h | h) | h
    · exact .inr ⟨a, by simp, h⟩
    · exact .inl h
    · rcases mem_join (l := b :: l) h with h | ⟨p, hp, h⟩
      · exact .inl h
      · exact .inr ⟨p, by simp [hp], h⟩

/-- The query text. -/
def queryText (ts : List Str) : Str := Str.join c!"&" ts

theorem isDigit_plain {n : Nat} {d : Char} (h : IsDigit n d) : d ≠ '&' ∧ Str.isWs d = false := by
  have : ∀ d ∈ c!"0123456789ABCDEFabcdef", d ≠ '&' ∧ Str.isWs d = false := by decide
  apply this
  rcases h with h | h
  · have := List.mem_of_getElem? h; revert this; simp; tauto
  · have := List.mem_of_getElem? h; revert this; simp; tauto

theorem bytesSent_plain {bs : List UInt8} {t : Str} (h : BytesSent bs t) : ∀ c ∈ t, c ≠ '&' ∧ Str.isWs c = false := by
  induction h with
  | nil => simp
  | cons h1 h2 _ ih =>
    intro c hc
    simp only [List.mem_cons] at hc
    rcases hc with rfl | rfl | rfl | hc
    · decide
    · exact isDigit_plain h1
    · exact isDigit_plain h2
    · exact ih c hc

theorem encodes_plain {v t : Str} (h : Encodes v t) : ∀ c ∈ t, c ≠ '&' ∧ Str.isWs c = false := by
  induction h with
  | nil => simp
  | plain _ h2 h3 _ ih =>
    intro c hc
    rcases List.mem_cons.1 hc with rfl | hc
    · exact ⟨h2, h3⟩
    · exact ih c hc
  | bytes hb _ ih =>
    intro c hc
    rcases List.mem_append.1 hc with hc | hc
    · exact bytesSent_plain hb c hc
    · exact ih c hc

theorem param_mem {p : Str × Option Str} {t : Str} (h : Param p t) {c : Char} (hc : c ∈ t) : c ≠ '&' ∧ Str.isWs c = false := by
  cases h with
  | alone hk => exact ⟨(hk c hc).1, (hk c hc).2.2⟩
  | value hk he =>
    simp only [List.mem_append, List.mem_singleton] at hc
    rcases hc with (hc | hc) | hc
    · exact ⟨(hk c hc).1, (hk c hc).2.2⟩
    · rw [hc]; decide
    · exact encodes_plain he c hc

theorem params_plain {ps : List (Str × Option Str)} {ts : List Str} (h : List.Forall₂ Param ps ts) : ∀ t ∈ ts, ∀ c ∈ t, c ≠ '&' ∧ Str.isWs c = false := by
  induction h with
  | nil => simp
  | cons hp _ ih =>
    intro t ht
    rcases List.mem_cons.1 ht with rfl | ht
    · exact fun c hc => param_mem hp hc
    · exact ih t ht

theorem query_ws {ps : List (Str × Option Str)} {ts : List Str} (hk : List.Forall₂ Param ps ts) (c : Char) (h : c ∈ queryText ts) : Str.isWs c = false := by
  rcases mem_join h with h | ⟨p, hp, h⟩
  · rw [List.mem_singleton] at h; rw [h]; decide
  · exact (params_plain hk p hp c h).2

theorem request_line {ps : List (Str × Option Str)} {ts : List Str} (hk : List.Forall₂ Param ps ts) (rest : Str) :
    ∃ ls, Str.lines (getWith ts rest) = (c!"GET /eval?" ++ queryText ts ++ c!" HTTP/1.1") :: ls := by
  refine ⟨Str.lines rest, ?_⟩
  have e : getWith ts rest = (c!"GET /eval?" ++ queryText ts ++ c!" HTTP/1.1") ++ c!"\r\n" ++ rest := by
    unfold getWith queryText
    rw [intercalate_join]
    simp
  rw [e, lines_crlf]
  intro c hc
  simp only [List.mem_append] at hc
  rintro rfl
  rcases hc with (hc | hc) | hc
  · revert hc; decide
  · have := query_ws hk _ hc
    revert this; decide
  · revert hc; decide

theorem request_parts {ps : List (Str × Option Str)} {ts : List Str} (hk : List.Forall₂ Param ps ts) :
    Str.splitWs (c!"GET /eval?" ++ queryText ts ++ c!" HTTP/1.1") = [c!"GET", c!"/eval?" ++ queryText ts, c!"HTTP/1.1"] := by
  have e : c!"GET /eval?" ++ queryText ts ++ c!" HTTP/1.1" = c!"GET" ++ ' ' :: ((c!"/eval?" ++ queryText ts) ++ ' ' :: c!"HTTP/1.1") := by simp
  unfold Str.splitWs
  rw [e, splitWsGo_word _ _ (by decide) _ _ (by decide) (by simp), splitWsGo_word _ _ _ _ _ (by decide) (by simp)]
  · rfl
  · intro c hc
    rcases List.mem_append.1 hc with hc | hc
    · have : ∀ c ∈ c!"/eval?", Str.isWs c = false := by decide
      exact this c hc
    · exact query_ws hk c hc

theorem endsAt_char (c : Char) (p : Str) (h : ∀ x ∈ p, x ≠ c) : EndsAtDelim [c] p := by
  intro k hk hc
  rw [List.drop_append_of_le_length (by omega), List.drop_eq_getElem_cons hk, List.cons_append, List.cons_prefix_cons] at hc
  exact h _ (List.getElem_mem hk) hc.1.symm

theorem path_head (q : Str) : (Str.split (c!"/eval?" ++ q) c!"?").headD (c!"/eval?" ++ q) = c!"/eval" := by
  have e : c!"/eval?" ++ q = c!"/eval" ++ c!"?" ++ q := by simp
  unfold Str.split
  rw [e, if_neg (by decide), splitGo_part c!"?" c!"/eval" q [] (by simp) (endsAt_char _ _ (by decide))]
  rfl

theorem path_query (q : Str) : Str.splitOnce c!"?" (c!"/eval?" ++ q) = some (c!"/eval", q) := by
  have e : c!"/eval?" ++ q = c!"/eval" ++ ('?' :: ([] ++ q)) := by simp
  rw [e, splitOnce_over '?' [] c!"/eval" _ (by decide), splitOnce_here]
  rfl

theorem query_split {ps : List (Str × Option Str)} {ts : List Str} (hne : ps ≠ []) (hk : List.Forall₂ Param ps ts) :
    Str.split (queryText ts) c!"&" = ts := by
  unfold queryText
  apply split_join _ (by simp) _ (by rintro rfl; exact hne (List.forall₂_nil_right_iff.1 hk))
  intro p hp
  apply endsAt_char
  exact fun c hc => (params_plain hk p hp c hc).1

/-! The loop over the parameters. -/

/-- One parameter, as the loop takes it. -/
def step (q : Query) (p : Str × Str) : Query :=
  if p.1 = c!"expr" ∨ p.1 = c!"expression" then { q with expression := p.2 }
  else if p.1 = c!"output_json" then { q with outputJson := p.2 == c!"true" }
  else if p.1 = c!"include_variables" then { q with includeVariables := includeOf p.2 }
  else { q with «variables» := (p.1, queryValue p.2) :: q.variables.filter fun r => r.1 ≠ p.1 }

/-! Decoding. -/

open HttpRead in
theorem hexVal_hexDigit (n : Nat) (h : n < 16) : hexVal (hexDigit n) = some n := by
  have : ∀ n : Fin 16, hexVal (hexDigit n) = some n.val := by decide
  exact this ⟨n, h⟩

open HttpRead in
theorem pctBytes_bytes (rest : Str) : ∀ bs : List UInt8,
    pctBytes 0 (bs.flatMap (fun b => ['%', hexDigit (b.toNat / 16), hexDigit (b.toNat % 16)]) ++ rest) = bs ++ pctBytes 0 rest
  | [] => rfl
  | b :: bs => by
    have hb : b.toNat < 256 := b.toNat_lt
    rw [List.flatMap_cons, List.append_assoc]
    simp only [List.cons_append, List.nil_append]
    rw [pctBytes, if_pos rfl]
    simp only [List.head?_cons, List.tail_cons, Option.bind_some, hexVal_hexDigit _ (show b.toNat / 16 < 16 by omega), hexVal_hexDigit _ (show b.toNat % 16 < 16 by omega)]
    simp only [pctBytes]
    rw [pctBytes_bytes rest bs, Nat.div_add_mod]
    simp

open HttpRead in
theorem pctBytes_encode : ∀ v : Str, pctBytes 0 (pctEncode v) = v.flatMap String.utf8EncodeChar
  | [] => rfl
  | c :: v => by
    have ih := pctBytes_encode v
    unfold pctEncode at ih ⊢
    rw [List.flatMap_cons, List.flatMap_cons]
    split
    · rename_i hc
      have : c ≠ '%' := by rintro rfl; revert hc; decide
      rw [List.singleton_append, pctBytes, if_neg this, ih]
    · rw [pctBytes_bytes, ih]

open HttpRead in
theorem hexVal_isDigit {n : Nat} {d : Char} (h : IsDigit n d) : hexVal d = some n := by
  have up : ∀ n : Fin 16, ∀ d, (c!"0123456789ABCDEF")[n.val]? = some d → hexVal d = some n.val := by
    intro n d hd
    have : ∀ n : Fin 16, ((c!"0123456789ABCDEF")[n.val]?).bind hexVal = some n.val := by decide
    have := this n
    rwa [hd, Option.bind_some] at this
  have low : ∀ n : Fin 16, ∀ d, (c!"0123456789abcdef")[n.val]? = some d → hexVal d = some n.val := by
    intro n d hd
    have : ∀ n : Fin 16, ((c!"0123456789abcdef")[n.val]?).bind hexVal = some n.val := by decide
    have := this n
    rwa [hd, Option.bind_some] at this
  rcases h with h | h
  · have hn := (List.getElem?_eq_some_iff.1 h).1
    exact up ⟨n, by simpa using hn⟩ d h
  · have hn := (List.getElem?_eq_some_iff.1 h).1
    exact low ⟨n, by simpa using hn⟩ d h

open HttpRead in
theorem pctBytes_sent {bs : List UInt8} {t : Str} (h : BytesSent bs t) (rest : Str) : pctBytes 0 (t ++ rest) = bs ++ pctBytes 0 rest := by
  induction h with
  | nil => rfl
  | @cons b bs d e t h1 h2 _ ih =>
    simp only [List.cons_append]
    rw [pctBytes, if_pos rfl]
    simp only [List.head?_cons, List.tail_cons, Option.bind_some, hexVal_isDigit h1, hexVal_isDigit h2]
    simp only [pctBytes]
    rw [ih, Nat.div_add_mod]
    simp

open HttpRead in
theorem pctBytes_encodes {v t : Str} (h : Encodes v t) : pctBytes 0 t = v.flatMap String.utf8EncodeChar := by
  induction h with
  | nil => rfl
  | plain h1 _ _ _ ih => rw [pctBytes, if_neg h1, ih, List.flatMap_cons]
  | bytes hb _ ih => rw [pctBytes_sent hb, ih, List.flatMap_cons]

/-- Every encoded value is received. -/
theorem urlDecode_encodes {v t : Str} (h : Encodes v t) : HttpRead.urlDecode t = some v := by
  unfold HttpRead.urlDecode; rw [pctBytes_encodes h]; exact HttpRead.utf8_of_encode v

theorem isDigit_hexDigit (n : Nat) (h : n < 16) : IsDigit n (hexDigit n) := by
  have : ∀ n : Fin 16, (c!"0123456789ABCDEF")[n.val]? = some (hexDigit n.val) := by decide
  exact .inl (this ⟨n, h⟩)

theorem bytesSent_pct : ∀ bs : List UInt8, BytesSent bs (bs.flatMap fun b => ['%', hexDigit (b.toNat / 16), hexDigit (b.toNat % 16)])
  | [] => .nil
  | b :: bs => by
    have hb : b.toNat < 256 := b.toNat_lt
    exact .cons (isDigit_hexDigit _ (by omega)) (isDigit_hexDigit _ (by omega)) (bytesSent_pct bs)

theorem encodes_pct : ∀ v : Str, Encodes v (pctEncode v)
  | [] => .nil
  | c :: v => by
    have ih := encodes_pct v
    have e : pctEncode (c :: v) = pctEncode [c] ++ pctEncode v := by simp [pctEncode]
    rw [e]
    by_cases hc : unreserved c = true
    · have e1 : pctEncode [c] = [c] := by simp [pctEncode, hc]
      have hp := pct_plain [c] c (by simp [e1])
      rw [e1]
      exact .plain (by rintro rfl; revert hc; decide) hp.1 hp.2.2 ih
    · have e1 : pctEncode [c] = (String.utf8EncodeChar c).flatMap fun b => ['%', hexDigit (b.toNat / 16), hexDigit (b.toNat % 16)] := by simp [pctEncode, hc]
      rw [e1]
      exact .bytes (bytesSent_pct _) ih

/-- The encoding with large digits is one of the ways. -/
theorem params_pct : ∀ ps : List (Str × Option Str), (∀ p ∈ ps, PlainKey p.1) → List.Forall₂ Param ps (ps.map paramText)
  | [], _ => .nil
  | (k, none) :: ps, h => .cons (.alone (h (k, none) (by simp))) (params_pct ps fun p hp => h p (by simp [hp]))
  | (k, some v) :: ps, h => .cons (.value (h (k, some v) (by simp)) (encodes_pct v)) (params_pct ps fun p hp => h p (by simp [hp]))

theorem params_eq {ps : List (Str × Option Str)} {ts : List Str} (h : List.Forall₂ Param ps ts) : ∀ q : Query,
    queryParams ts q = (given ps).foldl step q := by
  induction h with
  | nil => exact fun _ => rfl
  | @cons p t ps ts hp _ ih =>
    intro q
    cases hp with
    | @alone k hk =>
      have hs : Str.splitOnce c!"=" t = none := splitOnce_none '=' [] t fun c hc => (hk c hc).2.1
      rw [queryParams, hs]
      exact ih q
    | @value k v t hk he =>
      have hs : Str.splitOnce c!"=" (k ++ c!"=" ++ t) = some (k, t) := by
        have e : k ++ c!"=" ++ t = k ++ ('=' :: ([] ++ t)) := by simp
        rw [e, splitOnce_over '=' [] k _ fun c hc => (hk c hc).2.1, splitOnce_here]
        simp
      rw [queryParams]
      simp only [hs, urlDecode_encodes he, Option.getD_some]
      rw [ih]
      rfl

theorem lastGiven_append (names : List Str) (ps : List (Str × Str)) (p : Str × Str) :
    lastGiven names (ps ++ [p]) = if p.1 ∈ names then some p.2 else lastGiven names ps := by
  induction ps with
  | nil => obtain ⟨k, v⟩ := p; simp only [List.nil_append, lastGiven]
  | cons r ps ih =>
    obtain ⟨k, v⟩ := r
    simp only [List.cons_append, lastGiven, ih]
    by_cases hp : p.1 ∈ names <;> simp only [hp, if_true, if_false]

theorem arrives (v : Str) : Arrives v (queryValue v) := by
  unfold queryValue
  split
  · rename_i x h
    unfold Json.ofF64
    split
    · exact .number x h ‹_›
    · exact .notFinite x h (by simpa using ‹¬ x.isFinite = true›)
  · rename_i h
    split
    · exact .yes ‹_›
    · split
      · exact .no ‹_›
      · exact .text h ‹_› ‹_›

/-- What the loop has after the parameters. -/
structure Inv (ps : List (Str × Str)) (q : Query) : Prop where
  expression : q.expression = (lastGiven [c!"expr", c!"expression"] ps).getD []
  outputJson : q.outputJson = true ↔ lastGiven [c!"output_json"] ps = some c!"true"
  incl : q.includeVariables = ((lastGiven [c!"include_variables"] ps).map includeOf).getD .none
  once : (q.variables.map (·.1)).Nodup
  vars : ∀ k j, (k, j) ∈ q.variables ↔ k ∉ reserved ∧ ∃ v, lastGiven [k] ps = some v ∧ j = queryValue v

theorem inv_step {ps : List (Str × Str)} {q : Query} (h : Inv ps q) (p : Str × Str) : Inv (ps ++ [p]) (step q p) := by
  obtain ⟨k, v⟩ := p
  have other : ∀ (n : Str), k ∈ reserved → n ∉ reserved → k ∉ [n] := by
    intro n hk hn he
    rw [List.mem_singleton] at he
    exact hn (he ▸ hk)
  unfold step
  split
  · rename_i hk
    simp only at hk
    have hr : k ∈ reserved := by unfold reserved; rcases hk with rfl | rfl <;> simp
    refine ⟨?_, ?_, ?_, h.once, ?_⟩
    · rw [lastGiven_append, if_pos (by simpa using hk)]; rfl
    · rw [lastGiven_append, if_neg (show k ∉ _ by rcases hk with rfl | rfl <;> decide)]; exact h.outputJson
    · rw [lastGiven_append, if_neg (show k ∉ _ by rcases hk with rfl | rfl <;> decide)]; exact h.incl
    · intro n j
      rw [lastGiven_append]
      by_cases hn : n ∈ reserved
      · simp [h.vars, hn]
      · rw [if_neg (other n hr hn)]; exact h.vars n j
  · rename_i hk
    simp only at hk
    have hk1 : k ∉ [c!"expr", c!"expression"] := by simpa using hk
    split
    · rename_i hk2
      simp only at hk2
      subst hk2
      have hr : c!"output_json" ∈ reserved := by decide
      refine ⟨?_, ?_, ?_, h.once, ?_⟩
      · rw [lastGiven_append, if_neg hk1]; exact h.expression
      · rw [lastGiven_append, if_pos (by simp)]; simp
      · rw [lastGiven_append, if_neg (show c!"output_json" ∉ _ by decide)]; exact h.incl
      · intro n j
        rw [lastGiven_append]
        by_cases hn : n ∈ reserved
        · simp [h.vars, hn]
        · rw [if_neg (other n hr hn)]; exact h.vars n j
    · rename_i hk2
      simp only at hk2
      split
      · rename_i hk3
        simp only at hk3
        subst hk3
        have hr : c!"include_variables" ∈ reserved := by decide
        refine ⟨?_, ?_, ?_, h.once, ?_⟩
        · rw [lastGiven_append, if_neg hk1]; exact h.expression
        · rw [lastGiven_append, if_neg (show c!"include_variables" ∉ _ by decide)]; exact h.outputJson
        · rw [lastGiven_append, if_pos (by simp)]; rfl
        · intro n j
          rw [lastGiven_append]
          by_cases hn : n ∈ reserved
          · simp [h.vars, hn]
          · rw [if_neg (other n hr hn)]; exact h.vars n j
      · rename_i hk3
        simp only at hk3
        have hr : k ∉ reserved := by
          unfold reserved
          simp only [List.mem_cons, List.not_mem_nil, or_false, not_or] at hk1 ⊢
          exact ⟨hk1.1, hk1.2, hk2, hk3⟩
        refine ⟨?_, ?_, ?_, ?_, ?_⟩
        · rw [lastGiven_append, if_neg hk1]; exact h.expression
        · rw [lastGiven_append, if_neg (by simpa using hk2)]; exact h.outputJson
        · rw [lastGiven_append, if_neg (by simpa using hk3)]; exact h.incl
        · simp only [List.map_cons, List.nodup_cons]
          refine ⟨?_, (List.filter_sublist.map _).nodup h.once⟩
          simp
        · intro n j
          rw [lastGiven_append]
          simp only [List.mem_cons, List.mem_filter, Prod.mk.injEq, List.not_mem_nil, or_false]
          by_cases hn : k = n
          · subst hn
            simp [hr]
          · have hn' : n ≠ k := fun e => hn e.symm
            rw [if_neg hn, h.vars n j]
            simp [hn']

theorem inv_all : ∀ (ps qs : List (Str × Str)) (q : Query), Inv qs q → Inv (qs ++ ps) (ps.foldl step q)
  | [], qs, q, h => by simpa using h
  | p :: ps, qs, q, h => by
    have := inv_all ps (qs ++ [p]) (step q p) (inv_step h p)
    simpa using this

theorem inv_start : Inv [] {} :=
  ⟨rfl, by simp [lastGiven], rfl, List.nodup_nil, by simp [lastGiven]⟩

/-! The variables to report. -/

theorem strip_blank (s : Str) (h : ∀ c ∈ s, Str.isWs c = true) : Str.strip s = [] := by
  unfold Str.strip
  have : ∀ s : Str, (∀ c ∈ s, Str.isWs c = true) → s.dropWhile Str.isWs = [] := by
    intro s h
    induction s with
    | nil => rfl
    | cons c s ih => rw [List.dropWhile_cons_of_pos (h c (by simp))]; exact ih fun x hx => h x (by simp [hx])
  unfold Str.trim
  rw [this s h]
  rfl

theorem split_mem (p : Str) : ∀ (s : Str) (k : Nat) (acc : Str), ∀ w ∈ Str.splitGo p k acc s, ∀ c ∈ w, c ∈ acc ∨ c ∈ s
  | [], k, acc, w, hw, c, hc => by
    cases k <;> simp only [Str.splitGo, List.mem_singleton] at hw <;> subst hw <;> exact .inl (by simpa using hc)
  | x :: s, k + 1, acc, w, hw, c, hc => by
    simp only [Str.splitGo] at hw
    exact (split_mem p s k acc w hw c hc).imp id fun h => by simp [h]
  | x :: s, 0, acc, w, hw, c, hc => by
    simp only [Str.splitGo] at hw
    split at hw
    · rcases List.mem_cons.1 hw with rfl | hw
      · exact .inl (by simpa using hc)
      · rcases split_mem p s _ [] w hw c hc with h | h
        · simp at h
        · exact .inr (by simp [h])
    · rcases split_mem p s 0 (x :: acc) w hw c hc with h | h
      · rcases List.mem_cons.1 h with rfl | h
        · exact .inr (by simp)
        · exact .inl h
      · exact .inr (by simp [h])

theorem splitGo_clean (c : Char) : ∀ (s acc : Str), (∀ x ∈ acc, x ≠ c) → ∀ w ∈ Str.splitGo [c] 0 acc s, ∀ x ∈ w, x ≠ c
  | [], acc, h, w, hw, x, hx => by
    simp only [Str.splitGo, List.mem_singleton] at hw
    subst hw
    exact h x (by simpa using hx)
  | y :: s, acc, h, w, hw, x, hx => by
    simp only [Str.splitGo] at hw
    split at hw
    · rcases List.mem_cons.1 hw with rfl | hw
      · exact h x (by simpa using hx)
      · exact splitGo_clean c s [] (by simp) w hw x hx
    · rename_i hy
      refine splitGo_clean c s (y :: acc) ?_ w hw x hx
      intro z hz
      rcases List.mem_cons.1 hz with rfl | hz
      · rintro rfl
        apply hy
        rw [startsWith_iff]
        exact ⟨s, rfl⟩
      · exact h z hz

theorem selected_blank {v : Str} (h : ∀ c ∈ v, c = ',' ∨ Str.isWs c = true) : selectedNames v = [] := by
  unfold selectedNames
  rw [List.map_eq_nil_iff, List.filter_eq_nil_iff]
  intro s hs
  obtain ⟨w, hw, rfl⟩ := List.mem_map.1 hs
  rw [strip_blank w]
  · simp
  · intro c hc
    have hw' : w ∈ Str.splitGo [','] 0 [] v := hw
    have hne := splitGo_clean ',' v [] (by simp) w hw' c hc
    rcases split_mem _ v _ _ w hw' c hc with h' | h'
    · simp at h'
    · exact (h c h').resolve_left hne

theorem selected_listed {v : Str} (items : List (Str × Bool × Str × Str)) (hne : items ≠ [])
    (hi : ∀ i ∈ items, (∀ c ∈ i.1, Str.isWs c = true) ∧ (∀ c ∈ i.2.2.2, Str.isWs c = true) ∧ i.2.2.1 ≠ [] ∧ ∀ c ∈ i.2.2.1, c ≠ ',' ∧ c ≠ ':' ∧ Str.isWs c = false)
    (hv : v = c!",".intercalate (items.map fun i => i.1 ++ (if i.2.1 then c!":" else []) ++ i.2.2.1 ++ i.2.2.2)) :
    selectedNames v = items.map fun i => i.2.2.1 := by
  have hsplit : Str.split v c!"," = items.map fun i => i.1 ++ (if i.2.1 then c!":" else []) ++ i.2.2.1 ++ i.2.2.2 := by
    rw [hv, intercalate_join]
    apply split_join _ (by simp) _ (by simpa using hne)
    intro p hp
    obtain ⟨i, hi', rfl⟩ := List.mem_map.1 hp
    obtain ⟨ha, hb, -, hc⟩ := hi i hi'
    apply endsAt_char
    rintro c hc' rfl
    simp only [List.mem_append] at hc'
    rcases hc' with ((h | h) | h) | h
    · exact absurd (ha _ h) (by decide)
    · split at h
      · revert h; decide
      · simp at h
    · exact (hc _ h).1 rfl
    · exact absurd (hb _ h) (by decide)
  have hstrip : ∀ i ∈ items, Str.strip (i.1 ++ (if i.2.1 then c!":" else []) ++ i.2.2.1 ++ i.2.2.2) = (if i.2.1 then c!":" else []) ++ i.2.2.1 := by
    intro i hi'
    obtain ⟨ha, hb, hn, hc⟩ := hi i hi'
    have := strip_pad i.1 ((if i.2.1 then c!":" else []) ++ i.2.2.1) i.2.2.2 ha hb ?_
    · simpa using this
    · refine ⟨?_, ?_⟩
      · split
        · exact ⟨':', rfl, by decide⟩
        · cases hm : i.2.2.1 with
          | nil => exact absurd hm hn
          | cons c m => exact ⟨c, rfl, (hc c (by simp [hm])).2.2⟩
      · refine ⟨i.2.2.1.getLast hn, ?_, (hc _ (List.getLast_mem hn)).2.2⟩
        rw [List.getLast?_append, List.getLast?_eq_some_getLast hn]
        rfl
  unfold selectedNames
  have hm : (items.map fun i => i.1 ++ (if i.2.1 then c!":" else []) ++ i.2.2.1 ++ i.2.2.2).map Str.strip = items.map fun i => (if i.2.1 then c!":" else []) ++ i.2.2.1 := by
    rw [List.map_map]
    exact List.map_congr_left fun i hi' => hstrip i hi'
  rw [hsplit, hm]
  rw [List.filter_eq_self.2, List.map_map]
  · apply List.map_congr_left
    intro i hi'
    obtain ⟨-, -, hn, hc⟩ := hi i hi'
    cases hb : i.2.1 with
    | true => simp [hb]
    | false =>
      cases hm : i.2.2.1 with
      | nil => exact absurd hm hn
      | cons c m =>
        have : c ≠ ':' := (hc c (by simp [hm])).2.1
        simp only [Function.comp, hb, hm, Bool.false_eq_true, if_false, List.nil_append]
        split
        · rename_i r he
          injection he with he _
          exact absurd he this
        · rfl
  · intro s hs
    obtain ⟨i, hi', rfl⟩ := List.mem_map.1 hs
    have := (hi i hi').2.2.1
    cases hm : i.2.2.1 with
    | nil => exact absurd hm this
    | cons c m => simp

theorem chooses_eq {v : Str} {inc : Include} (h : Chooses v inc) : includeOf v = inc := by
  cases h with
  | all h => subst h; decide
  | no h => subst h; decide
  | blank h =>
    have h1 : v ≠ c!"true" := by rintro rfl; have := h 't' (by decide); revert this; decide
    have h2 : v ≠ c!"false" := by rintro rfl; have := h 'f' (by decide); revert this; decide
    unfold includeOf
    rw [if_neg h1, if_neg h2, selected_blank h]
  | listed items h1 h2 hne hi hv =>
    unfold includeOf
    rw [if_neg h1, if_neg h2, selected_listed items hne hi hv]
    cases items with
    | nil => exact absurd rfl hne
    | cons i items => rfl

/-! The request as a whole. -/

theorem get_eq (X : Ext) (H : HttpExt) (cfg : Config) (s : Site) (ps : List (Str × Option Str)) (ts : List Str) (rest : Str) (hne : ps ≠ [])
    (hk : List.Forall₂ Param ps ts) (hauth : passes X (getWith ts rest) cfg.authToken = .ok true) :
    handle X H cfg (getWith ts rest) s =
      (let q := (given ps).foldl step {}
       if q.expression.isEmpty then reply s 400
       else sendEval X s ⟨q.expression, if q.variables.isEmpty then none else some q.variables, some q.outputJson, some q.includeVariables⟩) := by
  obtain ⟨ls, hl⟩ := request_line hk rest
  unfold handle
  rw [hl]
  simp only [request_parts hk, path_head]
  have hr : route X H cfg c!"GET" c!"/eval" (getWith ts rest) s = evalGet X cfg (getWith ts rest) s := rfl
  rw [hr]
  unfold evalGet
  rw [withToken_pass X _ _ s _ hauth, hl]
  simp only [List.headD_cons, request_parts hk, path_query, query_split hne hk, params_eq hk {}]

theorem asked (ps : List (Str × Str)) (h : lastGiven [c!"expr", c!"expression"] ps ≠ none) :
    Asks ps (let q := ps.foldl step {}
      ⟨q.expression, if q.variables.isEmpty then none else some q.variables, some q.outputJson, some q.includeVariables⟩) := by
  have hi : Inv ps (ps.foldl step {}) := by simpa using inv_all ps [] {} inv_start
  generalize ps.foldl step {} = q at hi
  have ha : (if q.variables.isEmpty then none else some q.variables).getD [] = q.variables := by
    cases q.variables <;> rfl
  refine ⟨?_, ?_, by simp, ?_, ?_, ?_, ?_, ?_⟩
  · obtain ⟨e, he⟩ := Option.ne_none_iff_exists'.1 h
    simp only [hi.expression, he, Option.getD_some]
  · simpa using hi.outputJson
  · intro hn; simp [hi.incl, hn]
  · intro v inc hv hc; simp [hi.incl, hv, chooses_eq hc]
  · simpa only [ha] using hi.once
  · intro k v hk hv
    refine ⟨queryValue v, ?_, arrives v⟩
    simp only [ha]
    exact (hi.vars k _).2 ⟨hk, v, hv, rfl⟩
  · intro k j hj
    simp only [ha] at hj
    obtain ⟨hk, v, hv, rfl⟩ := (hi.vars k j).1 hj
    exact ⟨hk, v, hv, arrives v⟩

/-- **C101.** A GET request to `/eval` with percent-encoded values evaluates what its parameters ask for: the last expression given, with a variable for every other
name that has a value (the last value given for it), answered like any evaluation. -/
theorem C101_evaluates (X : Ext) (H : HttpExt) (cfg : Config) (s : Site) (ps : List (Str × Option Str)) (ts : List Str) (rest : Str)
    (hk : List.Forall₂ Param ps ts) (hauth : passes X (getWith ts rest) cfg.authToken = .ok true)
    (e : Str) (he : lastGiven [c!"expr", c!"expression"] (given ps) = some e) (hne : e ≠ []) :
    ∃ q, Asks (given ps) q ∧ handle X H cfg (getWith ts rest) s = sendEval X s q := by
  have hps : ps ≠ [] := by rintro rfl; simp [lastGiven, given] at he
  have hi : Inv (given ps) ((given ps).foldl step {}) := by simpa using inv_all (given ps) [] {} inv_start
  refine ⟨_, asked (given ps) (by simp [he]), ?_⟩
  rw [get_eq X H cfg s ps ts rest hps hk hauth]
  simp only
  rw [if_neg]
  rw [hi.expression, he]
  simpa using hne

/-- **C101.** Without an expression, or with an empty one, it is answered with 400, and nothing changes. -/
theorem C101_missing (X : Ext) (H : HttpExt) (cfg : Config) (s : Site) (ps : List (Str × Option Str)) (ts : List Str) (rest : Str) (hps : ps ≠ [])
    (hk : List.Forall₂ Param ps ts) (hauth : passes X (getWith ts rest) cfg.authToken = .ok true)
    (he : lastGiven [c!"expr", c!"expression"] (given ps) = none ∨ lastGiven [c!"expr", c!"expression"] (given ps) = some []) :
    handle X H cfg (getWith ts rest) s = reply s 400 := by
  have hi : Inv (given ps) ((given ps).foldl step {}) := by simpa using inv_all (given ps) [] {} inv_start
  rw [get_eq X H cfg s ps ts rest hps hk hauth]
  simp only
  rw [if_pos]
  rw [hi.expression]
  rcases he with he | he <;> rw [he] <;> rfl

/-- A POST request to `/eval`. -/
def Spec.postRequest (headers : List Str) (body : Str) : Str :=
  c!"POST /eval HTTP/1.1\r\n" ++ headers.flatMap (· ++ c!"\r\n") ++ c!"\r\n" ++ body

/-- A header line. -/
def Spec.HeaderLine (l : Str) : Prop := l ≠ [] ∧ ∀ c ∈ l, c ≠ '\r' ∧ c ≠ '\n'

theorem headers_end (body : Str) : ∀ (l : Str) (ls : List Str), HeaderLine l → (∀ l ∈ ls, HeaderLine l) →
    ∃ h, Str.splitOnce c!"\r\n\r\n" (l ++ c!"\r\n" ++ ls.flatMap (· ++ c!"\r\n") ++ c!"\r\n" ++ body) = some (h, body)
  | l, [], hl, _ => by
    have e : l ++ c!"\r\n" ++ [].flatMap (· ++ c!"\r\n") ++ c!"\r\n" ++ body = l ++ ('\r' :: (c!"\n\r\n" ++ body)) := by simp
    rw [e, splitOnce_over '\r' c!"\n\r\n" l _ fun c hc => (hl.2 c hc).1, splitOnce_here]
    exact ⟨_, rfl⟩
  | l, [] :: ls, _, h => absurd rfl (h [] (by simp)).1
  | l, (c :: m) :: ls, hl, h => by
    obtain ⟨t, ht⟩ := headers_end body (c :: m) ls (h _ (by simp)) fun x hx => h x (by simp [hx])
    have e : l ++ c!"\r\n" ++ ((c :: m) :: ls).flatMap (· ++ c!"\r\n") ++ c!"\r\n" ++ body =
        l ++ ('\r' :: '\n' :: c :: (m ++ c!"\r\n" ++ ls.flatMap (· ++ c!"\r\n") ++ c!"\r\n" ++ body)) := by simp
    rw [e, splitOnce_over '\r' c!"\n\r\n" l _ fun c hc => (hl.2 c hc).1, splitOnce_crlf _ c ((h (c :: m) (by simp)).2 c (by simp)).1]
    have e2 : c :: (m ++ c!"\r\n" ++ ls.flatMap (· ++ c!"\r\n") ++ c!"\r\n" ++ body) = (c :: m) ++ c!"\r\n" ++ ls.flatMap (· ++ c!"\r\n") ++ c!"\r\n" ++ body := by simp
    rw [e2, ht]
    exact ⟨_, rfl⟩

theorem post_eq (X : Ext) (H : HttpExt) (cfg : Config) (s : Site) (headers : List Str) (body : Str) (hh : ∀ l ∈ headers, HeaderLine l)
    (hp : passes X (postRequest headers body) cfg.authToken = .ok true) :
    handle X H cfg (postRequest headers body) s =
      match H.decodeEval body with
      | .ok q => sendEval X s q
      | .error _ => reply s 400 := by
  have hl : Str.lines (postRequest headers body) = c!"POST /eval HTTP/1.1" :: Str.lines (headers.flatMap (· ++ c!"\r\n") ++ c!"\r\n" ++ body) := by
    have := lines_crlf c!"POST /eval HTTP/1.1" (headers.flatMap (· ++ c!"\r\n") ++ c!"\r\n" ++ body) (by decide)
    rw [← this]
    unfold postRequest
    simp
  have hw : Str.splitWs c!"POST /eval HTTP/1.1" = [c!"POST", c!"/eval", c!"HTTP/1.1"] := by decide
  have hpath : (Str.split c!"/eval" c!"?").headD c!"/eval" = c!"/eval" := by decide
  have hroute : route X H cfg c!"POST" c!"/eval" (postRequest headers body) s = evalPost X H cfg (postRequest headers body) s := rfl
  obtain ⟨t, ht⟩ := headers_end body c!"POST /eval HTTP/1.1" headers ⟨by simp, by decide⟩ hh
  have e : postRequest headers body = c!"POST /eval HTTP/1.1" ++ c!"\r\n" ++ headers.flatMap (· ++ c!"\r\n") ++ c!"\r\n" ++ body := by unfold postRequest; simp
  unfold handle
  rw [hl]
  simp only [hw, hpath, hroute]
  unfold evalPost
  rw [withToken_pass X _ _ s _ hp]
  unfold jsonBody
  rw [e, ht]
  cases hd : H.decodeEval body <;> simp only [hd] <;> rfl

/-- **C101.** It is answered as a POST request is whose body holds the same evaluation, and both leave the server in the same state. -/
theorem C101_like_post (X : Ext) (H : HttpExt) (cfg : Config) (s : Site) (ps : List (Str × Option Str)) (ts : List Str) (rest : Str)
    (hk : List.Forall₂ Param ps ts) (hauth : passes X (getWith ts rest) cfg.authToken = .ok true)
    (e : Str) (he : lastGiven [c!"expr", c!"expression"] (given ps) = some e) (hne : e ≠ []) :
    ∃ q, Asks (given ps) q ∧ ∀ headers body, (∀ l ∈ headers, HeaderLine l) → H.decodeEval body = .ok q → passes X (postRequest headers body) cfg.authToken = .ok true →
      handle X H cfg (getWith ts rest) s = handle X H cfg (postRequest headers body) s := by
  obtain ⟨q, hq, hr⟩ := C101_evaluates X H cfg s ps ts rest hk hauth e he hne
  refine ⟨q, hq, ?_⟩
  intro headers body hh hd hp
  rw [hr, post_eq X H cfg s headers body hh hp, hd]

/-- **C101.** A wrong token is refused before anything of the query is looked at. -/
theorem C101_refused (X : Ext) (H : HttpExt) (cfg : Config) (s : Site) (ps : List (Str × Option Str)) (ts : List Str) (rest : Str) (hk : List.Forall₂ Param ps ts)
    (hauth : passes X (getWith ts rest) cfg.authToken = .ok false) : handle X H cfg (getWith ts rest) s = reply s 401 := by
  obtain ⟨ls, hl⟩ := request_line hk rest
  unfold handle
  rw [hl]
  simp only [request_parts hk, path_head]
  have hr : route X H cfg c!"GET" c!"/eval" (getWith ts rest) s = evalGet X cfg (getWith ts rest) s := rfl
  rw [hr]
  unfold evalGet
  rw [withToken_401 X _ _ s _ hauth]

example : HttpRead.urlDecode c!"a%20b%2" = some c!"a b%2" := by decide +kernel

/-- A case: a name and value as another client sends them, with small digits, and with signs left as they are. -/
example : List.Forall₂ Param [(c!"expr", some c!"=1 + é"), (c!"x", none)] [c!"expr==1%20+%20%c3%A9", c!"x"] := by
  refine .cons (.value (v := c!"=1 + é") (by unfold PlainKey; decide) ?_) (.cons (.alone (by unfold PlainKey; decide)) .nil)
  have b : ∀ {c v b t}, BytesSent (String.utf8EncodeChar c) b → Encodes v t → Encodes (c :: v) (b ++ t) := fun h h' => .bytes h h'
  refine .plain (by decide) (by decide) (by decide) (.plain (by decide) (by decide) (by decide) (b (b := c!"%20") ?_ (.plain (by decide) (by decide) (by decide)
    (b (b := c!"%20") ?_ (b (t := []) (b := c!"%c3%A9") ?_ .nil)))))
  · exact .cons (.inl (by decide)) (.inl (by decide)) .nil
  · exact .cons (.inl (by decide)) (.inl (by decide)) .nil
  · exact .cons (.inr (by decide)) (.inl (by decide)) (.cons (.inl (by decide)) (.inl (by decide)) .nil)

/-- A case: an expression with spaces and signs, two variables, one of them given twice, and a name without a value. -/
example : (∀ p ∈ [(c!"expr", some c!"=:a + :b & 1"), (c!"debug", none), (c!"a", some c!"1.5"), (c!"b", some c!"x"), (c!"a", some c!"2")], PlainKey p.1) ∧
    lastGiven [c!"expr", c!"expression"] (given [(c!"expr", some c!"=:a + :b & 1"), (c!"debug", none), (c!"a", some c!"1.5"), (c!"b", some c!"x"), (c!"a", some c!"2")]) = some c!"=:a + :b & 1" ∧
    lastGiven [c!"a"] (given [(c!"expr", some c!"=:a + :b & 1"), (c!"debug", none), (c!"a", some c!"1.5"), (c!"b", some c!"x"), (c!"a", some c!"2")]) = some c!"2" ∧
    pctEncode c!"=:a + é" = c!"%3D%3Aa%20%2B%20%C3%A9" := by
  refine ⟨?_, by decide, by decide, by decide⟩
  unfold PlainKey
  decide

/-- A case: the text of a choice of variables. -/
example : Chooses c!"total, :tax" (.selected [c!"total", c!"tax"]) :=
  .listed [([], false, c!"total", []), (c!" ", true, c!"tax", [])] (by decide) (by decide) (by decide) (by decide) rfl

/-- **C101: values that do not arrive.** The texts `inf`, `nan` and `infinity` are read as numbers that JSON does not have, so they arrive as null; a
text of digits arrives as a number, whatever was meant: `007` arrives as 7. -/
theorem C101_values_changed :
    (∀ j, Arrives c!"inf" j → j = .null) ∧ (∀ j, Arrives c!"nan" j → j = .null) ∧ (∀ j, Arrives c!"Infinity" j → j = .null) ∧
    Arrives c!"007" (.num (.float (.fin 7))) ∧ Arrives c!"1e400" .null := by
  have key : ∀ (v : Str) (x : F64), F64.parse v = some x → x.isFinite = false → v ≠ c!"true" → v ≠ c!"false" → ∀ j, Arrives v j → j = .null := by
    intro v x hx hf h1 h2 j hj
    cases hj with
    | number y hy hfy => rw [hx] at hy; injection hy with hy; subst hy; rw [hf] at hfy; exact absurd hfy (by simp)
    | notFinite => rfl
    | yes h => exact absurd h h1
    | no h => exact absurd h h2
    | text h => rw [hx] at h; exact absurd h (by simp)
  refine ⟨key _ (.inf false) (by decide +kernel) rfl (by decide) (by decide), key _ .nan (by decide +kernel) rfl (by decide) (by decide),
    key _ (.inf false) (by decide +kernel) rfl (by decide) (by decide), .number _ (by decide +kernel) (by decide +kernel), .notFinite (.inf false) (by decide +kernel) rfl⟩

end HttpQuery
