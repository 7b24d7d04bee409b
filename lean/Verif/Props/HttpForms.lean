import Verif.Props.HttpFiles
/-! C59: multipart uploads. -/

open Http Spec

namespace Spec

/-- A text that neither starts nor ends with white space, and is not empty. -/
def Tight (s : Str) : Prop := (∃ x, s.head? = some x ∧ Str.isWs x = false) ∧ ∃ y, s.getLast? = some y ∧ Str.isWs y = false

/-- The headers a client writes for a field of a form. -/
def headerText (f : Field) : Str :=
  c!"Content-Disposition: form-data; name=\"" ++ f.name ++ c!"\"" ++
  (match f.filename with | some n => c!"; filename=\"" ++ n ++ c!"\"" | none => []) ++
  (match f.contentType with | some t => c!"\r\nContent-Type: " ++ t | none => [])

/-- What a client writes for a field, between two boundaries. -/
def formPart (f : Field) : Str := c!"\r\n" ++ headerText f ++ c!"\r\n\r\n" ++ f.content ++ c!"\r\n"

/-- A form as a client writes it. -/
def form (boundary : Str) (fs : List Field) : Str := Str.join (c!"--" ++ boundary) ([] :: fs.map formPart ++ [c!"--\r\n"])

/-- No colon, semicolon or line break. -/
def PlainName (s : Str) : Prop := ∀ c ∈ s, c ≠ ':' ∧ c ≠ ';' ∧ c ≠ '\r' ∧ c ≠ '\n'

/-- Fields that arrive: plain names, and a content that is not empty, has no white space around it and no two dashes at its end, and does not contain the boundary. -/
structure Sendable (boundary : Str) (f : Field) : Prop where
  name : f.name ≠ []
  plainName : PlainName f.name
  plainFile : ∀ n, f.filename = some n → PlainName n
  plainType : ∀ t, f.contentType = some t → Tight t ∧ ∀ c ∈ t, c ≠ ':' ∧ c ≠ '\r' ∧ c ≠ '\n'
  tight : Tight f.content
  noDashes : ¬ c!"--" <:+ f.content
  noBoundary : ¬ (c!"--" ++ boundary) <:+: f.content
  noBoundaryHeader : ¬ (c!"--" ++ boundary) <:+: headerText f

/-- A boundary without line breaks, colons and semicolons, and without white space around it. -/
def GoodBoundary (b : Str) : Prop := Tight b ∧ PlainName b

end Spec

theorem dropWhile_ws (a s : Str) (ha : ∀ c ∈ a, Str.isWs c = true) (x : Char) (hx : s.head? = some x) (hw : Str.isWs x = false) : (a ++ s).dropWhile Str.isWs = s := by
  induction a with
  | nil =>
    cases s with
    | nil => simp at hx
    | cons y s =>
      simp only [List.head?_cons, Option.some.injEq] at hx
      subst hx
      simp [hw]
  | cons c a ih =>
    simp only [List.cons_append, List.dropWhile, ha c (by simp)]
    exact ih fun d hd => ha d (by simp [hd])

/-- White space around goes, the rest stays. -/
theorem strip_pad (a m b : Str) (ha : ∀ c ∈ a, Str.isWs c = true) (hb : ∀ c ∈ b, Str.isWs c = true) (hm : Tight m) : Str.strip (a ++ (m ++ b)) = m := by
  obtain ⟨⟨x, hx, hwx⟩, y, hy, hwy⟩ := hm
  unfold Str.strip Str.trim
  rw [dropWhile_ws a (m ++ b) ha x (by cases m <;> simp_all) hwx, List.reverse_append]
  rw [dropWhile_ws b.reverse m.reverse (by simpa using hb) y (by rw [List.head?_reverse]; exact hy) hwy, List.reverse_reverse]

theorem strip_tight {m : Str} (hm : Tight m) : Str.strip m = m := by
  simpa using strip_pad [] m [] (by simp) (by simp) hm

theorem tight_append {a b : Str} {x y : Char} (ha : a.head? = some x) (hx : Str.isWs x = false) (hb : b.getLast? = some y) (hy : Str.isWs y = false) : Tight (a ++ b) := by
  refine ⟨⟨x, ?_, hx⟩, y, ?_, hy⟩
  · cases a with
    | nil => simp at ha
    | cons c a => simpa using ha
  · rw [List.getLast?_append, hb]; rfl

theorem stripPrefix_first {p0 c : Char} (h : c ≠ p0) (p s : Str) : Str.stripPrefix (c :: s) (p0 :: p) = none := by
  simp [Str.stripPrefix, h]

theorem splitOnce_over (p0 : Char) (p : Str) : ∀ (a s : Str), (∀ c ∈ a, c ≠ p0) → Str.splitOnce (p0 :: p) (a ++ s) = (Str.splitOnce (p0 :: p) s).map fun r => (a ++ r.1, r.2)
  | [], s, _ => by rw [List.nil_append]; cases Str.splitOnce (p0 :: p) s <;> simp
  | c :: a, s, h => by
    simp only [List.cons_append, Str.splitOnce]
    rw [stripPrefix_first (h c (by simp))]
    simp only
    rw [splitOnce_over p0 p a s fun d hd => h d (by simp [hd])]
    cases Str.splitOnce (p0 :: p) s <;> simp

theorem splitOnce_here (p0 : Char) (p s : Str) : Str.splitOnce (p0 :: p) (p0 :: (p ++ s)) = some ([], s) := by
  have : Str.stripPrefix (p0 :: (p ++ s)) (p0 :: p) = some s := by
    have := Str.stripPrefix_append (p0 :: p) s
    simpa using this
  simp only [Str.splitOnce, this]

theorem splitOnce_none (p0 : Char) (p : Str) : ∀ (a : Str), (∀ c ∈ a, c ≠ p0) → Str.splitOnce (p0 :: p) a = none := by
  intro a h
  have := splitOnce_over p0 p a [] h
  simpa [Str.splitOnce] using this

theorem linesGo_line : ∀ (a acc s : Str), (∀ c ∈ a, c ≠ '\n') → Str.linesGo acc (a ++ '\n' :: s) = Str.stripCr (a.reverse ++ acc) :: Str.linesGo [] s
  | [], acc, s, _ => by simp [Str.linesGo]
  | c :: a, acc, s, h => by
    simp only [List.cons_append, Str.linesGo, if_neg (h c (by simp))]
    rw [linesGo_line a (c :: acc) s fun d hd => h d (by simp [hd])]
    simp

theorem lines_crlf (a s : Str) (h : ∀ c ∈ a, c ≠ '\n') : Str.lines (a ++ c!"\r\n" ++ s) = a :: Str.lines s := by
  unfold Str.lines
  have := linesGo_line (a ++ ['\r']) [] s (by simpa [or_imp, forall_and] using h)
  simp only [List.append_assoc, List.cons_append, List.nil_append] at this ⊢
  rw [this]
  simp [Str.stripCr]

theorem linesGo_single : ∀ (a acc : Str), (∀ c ∈ a, c ≠ '\n') → (a ≠ [] ∨ acc ≠ []) → Str.linesGo acc a = [acc.reverse ++ a]
  | [], acc, _, h => by
    have : acc ≠ [] := h.resolve_left (by simp)
    simp [Str.linesGo, this]
  | c :: a, acc, h, _ => by
    simp only [Str.linesGo, if_neg (h c (by simp))]
    rw [linesGo_single a (c :: acc) (fun d hd => h d (by simp [hd])) (by simp)]
    simp

theorem lines_single (a : Str) (h : ∀ c ∈ a, c ≠ '\n') (hne : a ≠ []) : Str.lines a = [a] := by
  unfold Str.lines
  rw [linesGo_single a [] h (.inl hne)]
  rfl

/-! Where the boundary is. -/

theorem endsAt_newline (d p : Str) (hn : '\n' ∉ d) (h : ¬ d <:+: p) : EndsAtDelim d (p ++ ['\n']) := by
  intro k hk hc
  have hk' : k ≤ p.length := by simp at hk; omega
  rw [List.append_assoc, List.drop_append_of_le_length hk', List.singleton_append] at hc
  obtain ⟨r, hr⟩ := hc
  rcases List.append_eq_append_iff.1 hr with ⟨m, hm1, hm2⟩ | ⟨m, hm1, hm2⟩
  · exact h ⟨p.take k, m, by rw [List.append_assoc, ← hm1, List.take_append_drop]⟩
  · cases m with
    | nil =>
      simp only [List.append_nil] at hm1
      exact h ⟨p.take k, [], by rw [hm1, List.append_assoc, List.append_nil, List.take_append_drop]⟩
    | cons c m =>
      simp only [List.cons_append, List.cons.injEq] at hm2
      exact hn (by rw [hm1, ← hm2.1]; simp)

theorem infix_split {d a b : Str} {c : Char} (hc : c ∉ d) (h : d <:+: a ++ c :: b) : d <:+: a ∨ d <:+: b := by
  obtain ⟨s, t, h⟩ := h
  rw [List.append_assoc] at h
  rcases List.append_eq_append_iff.1 h with ⟨m, hm1, hm2⟩ | ⟨m, hm1, hm2⟩
  · -- a = s ++ m, d ++ t = m ++ c :: b
    rcases List.append_eq_append_iff.1 hm2 with ⟨m', h1, h2⟩ | ⟨m', h1, h2⟩
    · left; exact ⟨s, m', by rw [hm1, h1, List.append_assoc]⟩
    · cases m' with
      | nil => left; exact ⟨s, [], by rw [hm1]; simp at h1; rw [h1]; simp⟩
      | cons x m' =>
        simp only [List.cons_append, List.cons.injEq] at h2
        exact absurd (by rw [h1, ← h2.1]; simp) hc
  · cases m with
    | nil =>
      simp only [List.nil_append] at hm2
      cases d with
      | nil => left; exact List.nil_infix
      | cons x d =>
        simp only [List.cons_append, List.cons.injEq] at hm2
        exact absurd (by rw [hm2.1]; simp) hc
    | cons x m =>
      simp only [List.cons_append, List.cons.injEq] at hm2
      right
      exact ⟨m, t, by rw [hm2.2, List.append_assoc]⟩

theorem delim_clean {b : Str} (hb : GoodBoundary b) : '\n' ∉ (c!"--" ++ b) ∧ '\r' ∉ (c!"--" ++ b) ∧ ':' ∉ (c!"--" ++ b) := by
  have h := hb.2
  refine ⟨?_, ?_, ?_⟩ <;>
  · intro hm
    simp only [List.cons_append, List.nil_append, List.mem_cons] at hm
    rcases hm with hm | hm | hm
    · exact absurd hm (by decide)
    · exact absurd hm (by decide)
    · have := h _ hm; simp at this

theorem good_ne {b : Str} (hb : GoodBoundary b) : b ≠ [] := by
  rintro rfl
  obtain ⟨⟨x, hx, _⟩, _⟩ := hb.1
  simp at hx

theorem formPart_ends {b : Str} (hb : GoodBoundary b) {f : Field} (hf : Sendable b f) : EndsAtDelim (c!"--" ++ b) (formPart f) := by
  obtain ⟨hn, hr, _⟩ := delim_clean hb
  have hnil : ¬ (c!"--" ++ b) <:+: [] := by simp
  have e : formPart f = ('\r' :: '\n' :: (headerText f ++ '\r' :: '\n' :: '\r' :: '\n' :: (f.content ++ ['\r']))) ++ ['\n'] := by
    simp [formPart]
  rw [e]
  refine endsAt_newline _ _ hn ?_
  intro h
  rcases infix_split (a := []) hr h with h | h
  · exact hnil h
  rcases infix_split (a := []) hn h with h | h
  · exact hnil h
  rcases infix_split hr h with h | h
  · exact hf.noBoundaryHeader h
  rcases infix_split (a := []) hn h with h | h
  · exact hnil h
  rcases infix_split (a := []) hr h with h | h
  · exact hnil h
  rcases infix_split (a := []) hn h with h | h
  · exact hnil h
  rcases infix_split hr h with h | h
  · exact hf.noBoundary h
  · exact hnil h

theorem last_ends {b : Str} (hb : GoodBoundary b) : EndsAtDelim (c!"--" ++ b) c!"--\r\n" := by
  obtain ⟨hn, hr, _⟩ := delim_clean hb
  have e : c!"--\r\n" = c!"--\r" ++ ['\n'] := rfl
  rw [e]
  refine endsAt_newline _ _ hn ?_
  intro h
  have h' : (c!"--" ++ b) <:+: c!"--" ++ '\r' :: [] := h
  rcases infix_split hr h' with h | h
  · have := h.length_le
    have hl : 0 < b.length := List.length_pos_of_ne_nil (good_ne hb)
    rw [List.length_append] at this
    have h2 : (c!"--").length = 2 := rfl
    omega
  · have := h.length_le
    simp at this

/-! The headers of a field. -/

theorem split_char_append (c : Char) (a n : Str) (h : ∀ x ∈ n, x ≠ c) : Str.split (a ++ c :: n) [c] = Str.split a [c] ++ [n] := by
  unfold Str.split
  simp only [List.isEmpty_cons, Bool.false_eq_true, if_false]
  exact splitGo_char c a [] n h

theorem unquote_quoted (n : Str) : unquote ('"' :: (n ++ c!"\"")) = .ok n := by
  have he : Str.endsWith ('"' :: (n ++ c!"\"")) c!"\"" = true := by
    unfold Str.endsWith
    rw [startsWith_iff]
    exact ⟨(('"' :: n).reverse), by simp⟩
  cases n with
  | nil => rfl
  | cons c n =>
    have e : unquote ('"' :: (c :: n ++ c!"\"")) = .ok (if Str.endsWith ('"' :: (c :: n ++ c!"\"")) c!"\"" then (c :: n ++ c!"\"").dropLast else '"' :: (c :: n ++ c!"\"")) := rfl
    rw [e, he, if_pos rfl, List.dropLast_concat]

theorem tight_snoc {s : Str} {x y : Char} (hs : s.head? = some x) (hx : Str.isWs x = false) (hy : Str.isWs y = false) : Tight (s ++ [y]) :=
  tight_append hs hx (List.getLast?_singleton) hy

theorem quoted_tight (k n : Str) (x : Char) (hk : k.head? = some x) (hx : Str.isWs x = false) : Tight (k ++ '=' :: '"' :: (n ++ c!"\"")) := by
  have : k ++ '=' :: '"' :: (n ++ c!"\"") = (k ++ '=' :: '"' :: n) ++ ['"'] := by simp
  rw [this]
  refine tight_snoc (x := x) ?_ hx (by decide)
  cases k with
  | nil => simp at hk
  | cons c k => simpa using hk

/-- One parameter of the header, `; key="value"`. -/
theorem param_one (k n : Str) (hk : Tight k) (hke : ∀ c ∈ k, c ≠ '=') (ps : List Str) (acc : Params) :
    dispositionParams ((' ' :: (k ++ '=' :: '"' :: (n ++ c!"\""))) :: ps) acc = dispositionParams ps ((k, n) :: acc) := by
  obtain ⟨x, hx, hwx⟩ := hk.1
  have hs : Str.strip (' ' :: (k ++ '=' :: '"' :: (n ++ c!"\""))) = k ++ '=' :: '"' :: (n ++ c!"\"") := by
    have := strip_pad [' '] (k ++ '=' :: '"' :: (n ++ c!"\"")) [] (by decide) (by simp) (quoted_tight k n x hx hwx)
    simpa using this
  have ho : Str.splitOnce c!"=" (k ++ '=' :: '"' :: (n ++ c!"\"")) = some (k, '"' :: (n ++ c!"\"")) := by
    rw [splitOnce_over '=' [] k _ hke]
    have := splitOnce_here '=' [] ('"' :: (n ++ c!"\""))
    simp only [List.nil_append] at this
    rw [this]
    simp
  have hq : Str.strip ('"' :: (n ++ c!"\"")) = '"' :: (n ++ c!"\"") := by
    refine strip_tight ?_
    exact tight_snoc (s := '"' :: n) (x := '"') rfl (by decide) (by decide)
  simp only [dispositionParams, hs, ho, hq, unquote_quoted, bind, Except.bind, strip_tight hk]

theorem disposition_name (n : Str) (hn : PlainName n) : disposition (c!"Content-Disposition: form-data; name=\"" ++ n ++ c!"\"") = .ok [(c!"name", n)] := by
  have e : c!"Content-Disposition: form-data; name=\"" ++ n ++ c!"\"" = c!"Content-Disposition" ++ ':' :: (c!" form-data" ++ ';' :: (' ' :: (c!"name" ++ '=' :: '"' :: (n ++ c!"\"")))) := by simp
  have hs1 : Str.split (c!"Content-Disposition" ++ ':' :: (c!" form-data" ++ ';' :: (' ' :: (c!"name" ++ '=' :: '"' :: (n ++ c!"\""))))) c!":" =
      [c!"Content-Disposition", c!" form-data" ++ ';' :: (' ' :: (c!"name" ++ '=' :: '"' :: (n ++ c!"\"")))] := by
    rw [split_char_append]
    · rfl
    · intro x hx
      simp only [List.cons_append, List.nil_append, List.mem_cons, List.mem_append, List.not_mem_nil, or_false] at hx
      rintro rfl
      simp at hx
      exact absurd rfl (hn _ hx).1
  have hst : Str.strip (c!" form-data" ++ ';' :: (' ' :: (c!"name" ++ '=' :: '"' :: (n ++ c!"\"")))) = c!"form-data" ++ ';' :: (' ' :: (c!"name" ++ '=' :: '"' :: (n ++ c!"\""))) := by
    have ht : Tight ((c!"form-data" ++ ';' :: (' ' :: (c!"name" ++ '=' :: '"' :: n))) ++ ['"']) := tight_snoc (x := 'f') rfl (by decide) (by decide)
    have := strip_pad [' '] _ [] (by decide) (by simp) ht
    simp only [List.append_nil, List.cons_append, List.nil_append] at this ⊢
    exact this
  have hs2 : Str.split (c!"form-data" ++ ';' :: (' ' :: (c!"name" ++ '=' :: '"' :: (n ++ c!"\"")))) c!";" = [c!"form-data", ' ' :: (c!"name" ++ '=' :: '"' :: (n ++ c!"\""))] := by
    rw [split_char_append]
    · rfl
    · intro x hx
      simp only [List.cons_append, List.nil_append, List.mem_cons, List.mem_append, List.not_mem_nil, or_false] at hx
      rintro rfl
      simp at hx
      exact absurd rfl (hn _ hx).2.1
  have h0 : ∀ ps, dispositionParams (c!"form-data" :: ps) [] = dispositionParams ps [] := by
    intro ps
    have : Str.splitOnce c!"=" (Str.strip c!"form-data") = none := by decide
    simp only [dispositionParams, this]
  unfold disposition
  rw [e, hs1]
  simp only
  rw [hst, hs2, h0, param_one c!"name" n ⟨⟨'n', rfl, by decide⟩, 'e', rfl, by decide⟩ (by decide)]
  rfl

theorem disposition_both (n m : Str) (hn : PlainName n) (hm : PlainName m) :
    disposition (c!"Content-Disposition: form-data; name=\"" ++ n ++ c!"\"" ++ (c!"; filename=\"" ++ m ++ c!"\"")) = .ok [(c!"filename", m), (c!"name", n)] := by
  have e : c!"Content-Disposition: form-data; name=\"" ++ n ++ c!"\"" ++ (c!"; filename=\"" ++ m ++ c!"\"") =
      c!"Content-Disposition" ++ ':' :: ((c!" form-data" ++ ';' :: (' ' :: (c!"name" ++ '=' :: '"' :: (n ++ c!"\"")))) ++ ';' :: (' ' :: (c!"filename" ++ '=' :: '"' :: (m ++ c!"\"")))) := by simp
  have hs1 : Str.split (c!"Content-Disposition" ++ ':' :: ((c!" form-data" ++ ';' :: (' ' :: (c!"name" ++ '=' :: '"' :: (n ++ c!"\"")))) ++ ';' :: (' ' :: (c!"filename" ++ '=' :: '"' :: (m ++ c!"\""))))) c!":" =
      [c!"Content-Disposition", (c!" form-data" ++ ';' :: (' ' :: (c!"name" ++ '=' :: '"' :: (n ++ c!"\"")))) ++ ';' :: (' ' :: (c!"filename" ++ '=' :: '"' :: (m ++ c!"\"")))] := by
    rw [split_char_append]
    · rfl
    · intro x hx
      simp only [List.cons_append, List.nil_append, List.mem_cons, List.mem_append, List.not_mem_nil, or_false] at hx
      rintro rfl
      simp at hx
      rcases hx with hx | hx
      · exact absurd rfl (hn _ hx).1
      · exact absurd rfl (hm _ hx).1
  have hst : Str.strip ((c!" form-data" ++ ';' :: (' ' :: (c!"name" ++ '=' :: '"' :: (n ++ c!"\"")))) ++ ';' :: (' ' :: (c!"filename" ++ '=' :: '"' :: (m ++ c!"\"")))) =
      (c!"form-data" ++ ';' :: (' ' :: (c!"name" ++ '=' :: '"' :: (n ++ c!"\"")))) ++ ';' :: (' ' :: (c!"filename" ++ '=' :: '"' :: (m ++ c!"\""))) := by
    have ht : Tight ((c!"form-data" ++ ';' :: (' ' :: (c!"name" ++ '=' :: '"' :: (n ++ c!"\""))) ++ ';' :: (' ' :: (c!"filename" ++ '=' :: '"' :: m))) ++ ['"']) :=
      tight_snoc (x := 'f') rfl (by decide) (by decide)
    have := strip_pad [' '] _ [] (by decide) (by simp) ht
    simp only [List.append_nil, List.append_assoc, List.cons_append, List.nil_append] at this ⊢
    exact this
  have hs2 : Str.split ((c!"form-data" ++ ';' :: (' ' :: (c!"name" ++ '=' :: '"' :: (n ++ c!"\"")))) ++ ';' :: (' ' :: (c!"filename" ++ '=' :: '"' :: (m ++ c!"\"")))) c!";" =
      [c!"form-data", ' ' :: (c!"name" ++ '=' :: '"' :: (n ++ c!"\"")), ' ' :: (c!"filename" ++ '=' :: '"' :: (m ++ c!"\""))] := by
    rw [split_char_append, split_char_append]
    · rfl
    · intro x hx
      simp only [List.cons_append, List.nil_append, List.mem_cons, List.mem_append, List.not_mem_nil, or_false] at hx
      rintro rfl
      simp at hx
      exact absurd rfl (hn _ hx).2.1
    · intro x hx
      simp only [List.cons_append, List.nil_append, List.mem_cons, List.mem_append, List.not_mem_nil, or_false] at hx
      rintro rfl
      simp at hx
      exact absurd rfl (hm _ hx).2.1
  have h0 : ∀ ps, dispositionParams (c!"form-data" :: ps) [] = dispositionParams ps [] := by
    intro ps
    have : Str.splitOnce c!"=" (Str.strip c!"form-data") = none := by decide
    simp only [dispositionParams, this]
  unfold disposition
  rw [e, hs1]
  simp only
  rw [hst, hs2, h0, param_one c!"name" n ⟨⟨'n', rfl, by decide⟩, 'e', rfl, by decide⟩ (by decide),
    param_one c!"filename" m ⟨⟨'f', rfl, by decide⟩, 'e', rfl, by decide⟩ (by decide)]
  rfl

/-- The first line of the headers of a field. -/
def dispositionLine (f : Field) : Str :=
  c!"Content-Disposition: form-data; name=\"" ++ f.name ++ c!"\"" ++ (match f.filename with | some n => c!"; filename=\"" ++ n ++ c!"\"" | none => [])

theorem dispositionLine_head (f : Field) : ∃ r, dispositionLine f = c!"Content-Disposition:" ++ r := by
  exact ⟨_, by unfold dispositionLine; rfl⟩

theorem dispositionLine_snoc (f : Field) : ∃ r, dispositionLine f = ('C' :: r) ++ ['"'] := by
  unfold dispositionLine
  cases f.filename with
  | none => exact ⟨c!"ontent-Disposition: form-data; name=\"" ++ f.name, by simp⟩
  | some n => exact ⟨c!"ontent-Disposition: form-data; name=\"" ++ f.name ++ c!"\"" ++ (c!"; filename=\"" ++ n), by simp⟩

theorem dispositionLine_tight (f : Field) : Tight (dispositionLine f) := by
  obtain ⟨r, hr⟩ := dispositionLine_snoc f
  rw [hr]
  exact tight_snoc (x := 'C') rfl (by decide) (by decide)

theorem dispositionLine_chars {b : Str} {f : Field} (hf : Sendable b f) : ∀ c ∈ dispositionLine f, c ≠ '\r' ∧ c ≠ '\n' := by
  intro c hc
  unfold dispositionLine at hc
  rw [List.mem_append, List.mem_append, List.mem_append] at hc
  rcases hc with ((hc | hc) | hc) | hc
  · have : ∀ c ∈ c!"Content-Disposition: form-data; name=\"", c ≠ '\r' ∧ c ≠ '\n' := by decide
    exact this c hc
  · exact ⟨(hf.plainName c hc).2.2.1, (hf.plainName c hc).2.2.2⟩
  · have : ∀ c ∈ c!"\"", c ≠ '\r' ∧ c ≠ '\n' := by decide
    exact this c hc
  · cases hn : f.filename with
    | none => rw [hn] at hc; simp at hc
    | some n =>
      rw [hn] at hc
      simp only at hc
      rw [List.mem_append, List.mem_append] at hc
      rcases hc with (hc | hc) | hc
      · have : ∀ c ∈ c!"; filename=\"", c ≠ '\r' ∧ c ≠ '\n' := by decide
        exact this c hc
      · have := hf.plainFile n hn c hc
        exact ⟨this.2.2.1, this.2.2.2⟩
      · have : ∀ c ∈ c!"\"", c ≠ '\r' ∧ c ≠ '\n' := by decide
        exact this c hc

theorem disposition_line {b : Str} {f : Field} (hf : Sendable b f) :
    ∃ ps, disposition (dispositionLine f) = .ok ps ∧ Params.get ps c!"name" = some f.name ∧ Params.get ps c!"filename" = f.filename := by
  unfold dispositionLine
  cases hn : f.filename with
  | none =>
    simp only [List.append_nil]
    exact ⟨_, disposition_name f.name hf.plainName, by simp [Params.get], by simp [Params.get]⟩
  | some n =>
    exact ⟨_, disposition_both f.name n hf.plainName (hf.plainFile n hn), by simp [Params.get], by simp [Params.get]⟩

theorem typeLine_tight {t : Str} (ht : Tight t) : Tight (c!"Content-Type: " ++ t) := by
  obtain ⟨_, y, hy, hwy⟩ := ht
  exact tight_append (x := 'C') rfl (by decide) hy hwy

theorem typeLine_after {t : Str} (ht : Tight t) (hc : ∀ c ∈ t, c ≠ ':') : afterColon (c!"Content-Type: " ++ t) = some t := by
  have e : c!"Content-Type: " ++ t = c!"Content-Type" ++ ':' :: (' ' :: t) := by simp
  have hs : Str.split (c!"Content-Type" ++ ':' :: (' ' :: t)) c!":" = [c!"Content-Type", ' ' :: t] := by
    rw [split_char_append]
    · rfl
    · intro x hx
      rcases List.mem_cons.1 hx with rfl | hx
      · decide
      · exact hc x hx
  have hp : Str.strip (' ' :: t) = t := by
    have := strip_pad [' '] t [] (by decide) (by simp) ht
    simpa using this
  unfold afterColon
  rw [e, hs]
  simp only
  rw [hp]

/-- What the header lines of a field say. -/
theorem fieldHeaders_lines (X : Ext) (hX : LowersWords X) {b : Str} {f : Field} (hf : Sendable b f) :
    fieldHeaders X (Str.lines (headerText f)) ([], none, none) = .ok (f.name, f.filename, f.contentType) := by
  have hch := dispositionLine_chars hf
  obtain ⟨ps, hd, hname, hfile⟩ := disposition_line hf
  have hst := strip_tight (dispositionLine_tight f)
  have hw : Str.startsWith (X.lower (dispositionLine f)) c!"content-disposition:" = true := by
    have := (word_front X hX (dispositionLine f) c!"Content-Disposition:" (by decide)).2
    obtain ⟨r, hr⟩ := dispositionLine_head f
    exact this ⟨_, r, hr, rfl⟩
  have hone : ∀ ls, fieldHeaders X (dispositionLine f :: ls) ([], none, none) = fieldHeaders X ls (f.name, f.filename, none) := by
    intro ls
    simp only [fieldHeaders, hst, hw, if_true, hd, bind, Except.bind, hname, hfile, Option.getD_some]
  cases ht : f.contentType with
  | none =>
    have e : headerText f = dispositionLine f := by unfold headerText dispositionLine; rw [ht]; simp
    rw [e, lines_single _ (fun c hc => (hch c hc).2) (by obtain ⟨r, hr⟩ := dispositionLine_head f; rw [hr]; simp), hone]
    rfl
  | some t =>
    obtain ⟨htt, htc⟩ := hf.plainType t ht
    have e : headerText f = dispositionLine f ++ c!"\r\n" ++ (c!"Content-Type: " ++ t) := by unfold headerText dispositionLine; rw [ht]; simp
    have hl2 : Str.lines (c!"Content-Type: " ++ t) = [c!"Content-Type: " ++ t] := by
      refine lines_single _ ?_ (by simp)
      intro c hc
      rcases List.mem_append.1 hc with hc | hc
      · have : ∀ c ∈ c!"Content-Type: ", c ≠ '\n' := by decide
        exact this c hc
      · exact (htc c hc).2.2
    have hst2 := strip_tight (typeLine_tight htt)
    have hw2 : Str.startsWith (X.lower (c!"Content-Type: " ++ t)) c!"content-disposition:" = false := by
      rw [hX _ _ (by decide)]
      rfl
    have hw3 : Str.startsWith (X.lower (c!"Content-Type: " ++ t)) c!"content-type:" = true := by
      rw [hX _ _ (by decide)]
      rfl
    rw [e, lines_crlf _ _ (fun c hc => (hch c hc).2), hl2, hone]
    simp only [fieldHeaders, hst2, hw2, hw3, Bool.false_eq_true, if_false, if_true, typeLine_after htt (fun c hc => (htc c hc).1), Option.getD_some]

theorem dashes_kept {s : Str} (h : ¬ c!"--" <:+ s) : Str.trimEndDashes s = s := by
  unfold Str.trimEndDashes
  have : Str.trimStartPairs '-' s.reverse = s.reverse := by
    cases hr : s.reverse with
    | nil => rfl
    | cons x r =>
      cases r with
      | nil => rfl
      | cons y r =>
        unfold Str.trimStartPairs
        rw [if_neg]
        rintro ⟨rfl, rfl⟩
        refine h ⟨r.reverse, ?_⟩
        rw [← List.reverse_reverse s, hr]
        simp
  rw [this, List.reverse_reverse]

theorem field_eq (X : Ext) (hX : LowersWords X) {b : Str} {f : Field} (hf : Sendable b f) : field X (headerText f) f.content = .ok f := by
  unfold field
  rw [fieldHeaders_lines X hX hf]
  have hn : f.name.isEmpty = false := by simpa using hf.name
  simp only [bind, Except.bind, hn, Bool.false_eq_true, if_false, pure, Except.pure, dashes_kept hf.noDashes, strip_tight hf.tight]

theorem headerText_line (f : Field) : headerText f = dispositionLine f ++ (match f.contentType with | some t => c!"\r\nContent-Type: " ++ t | none => []) := rfl

theorem splitOnce_crlf (rest : Str) (c : Char) (hc : c ≠ '\r') : Str.splitOnce c!"\r\n\r\n" ('\r' :: '\n' :: c :: rest) = (Str.splitOnce c!"\r\n\r\n" (c :: rest)).map fun r => ('\r' :: '\n' :: r.1, r.2) := by
  have h1 : Str.stripPrefix ('\r' :: '\n' :: c :: rest) c!"\r\n\r\n" = none := by simp [Str.stripPrefix, hc]
  have h2 : Str.stripPrefix ('\n' :: c :: rest) c!"\r\n\r\n" = none := by simp [Str.stripPrefix]
  rw [Str.splitOnce, h1]
  simp only
  rw [Str.splitOnce, h2]
  simp only
  cases Str.splitOnce c!"\r\n\r\n" (c :: rest) <;> rfl

theorem splitOnce_header {b : Str} {f : Field} (hf : Sendable b f) (rest : Str) : Str.splitOnce c!"\r\n\r\n" (headerText f ++ (c!"\r\n\r\n" ++ rest)) = some (headerText f, rest) := by
  have hch := dispositionLine_chars hf
  have hhere : Str.splitOnce c!"\r\n\r\n" (c!"\r\n\r\n" ++ rest) = some ([], rest) := splitOnce_here '\r' c!"\n\r\n" rest
  rw [headerText_line, List.append_assoc, splitOnce_over '\r' c!"\n\r\n" _ _ fun c hc => (hch c hc).1]
  cases ht : f.contentType with
  | none => simp only [List.nil_append, hhere, Option.map_some]
  | some t =>
    obtain ⟨htt, htc⟩ := hf.plainType t ht
    simp only
    have hk : ∀ c ∈ c!"Content-Type: " ++ t, c ≠ '\r' := by
      intro c hc
      rcases List.mem_append.1 hc with hc | hc
      · have : ∀ c ∈ c!"Content-Type: ", c ≠ '\r' := by decide
        exact this c hc
      · exact (htc c hc).2.1
    have := splitOnce_over '\r' c!"\n\r\n" (c!"Content-Type: " ++ t) (c!"\r\n\r\n" ++ rest) hk
    rw [hhere] at this
    have e : c!"\r\nContent-Type: " ++ t ++ (c!"\r\n\r\n" ++ rest) = '\r' :: '\n' :: 'C' :: (c!"ontent-Type: " ++ t ++ (c!"\r\n\r\n" ++ rest)) := by simp
    have e' : 'C' :: (c!"ontent-Type: " ++ t ++ (c!"\r\n\r\n" ++ rest)) = c!"Content-Type: " ++ t ++ (c!"\r\n\r\n" ++ rest) := by simp
    rw [e, splitOnce_crlf _ 'C' (by decide), e', this]
    simp

/-- Reading the part of a field gives the field. -/
theorem parts_cons (X : Ext) (hX : LowersWords X) {b : Str} (hb : GoodBoundary b) {f : Field} (hf : Sendable b f) (ps : List Str) (acc : List Field) :
    multipartParts X b (formPart f :: ps) acc = multipartParts X b ps (f :: acc) := by
  have hst : Str.strip (formPart f) = headerText f ++ (c!"\r\n\r\n" ++ f.content) := by
    obtain ⟨_, y, hy, hwy⟩ := hf.tight
    have ht : Tight (headerText f ++ (c!"\r\n\r\n" ++ f.content)) := by
      refine tight_append (x := 'C') (by rw [headerText_line]; obtain ⟨r, hr⟩ := dispositionLine_head f; rw [hr]; rfl) (by decide) (y := y) ?_ hwy
      rw [List.getLast?_append, hy]
      rfl
    have := strip_pad c!"\r\n" _ c!"\r\n" (by decide) (by decide) ht
    unfold formPart
    simp only [List.append_assoc] at this ⊢
    exact this
  have hend : Str.startsWith (headerText f ++ (c!"\r\n\r\n" ++ f.content)) (b ++ c!"--") = false := by
    rw [Bool.eq_false_iff]
    intro h
    rw [startsWith_iff, headerText_line] at h
    obtain ⟨r, hr⟩ := dispositionLine_head f
    rw [hr] at h
    have e : c!"Content-Disposition:" ++ r ++ (match f.contentType with | some t => c!"\r\nContent-Type: " ++ t | none => []) ++ (c!"\r\n\r\n" ++ f.content) =
        c!"Content-Disposition" ++ ':' :: (r ++ (match f.contentType with | some t => c!"\r\nContent-Type: " ++ t | none => []) ++ (c!"\r\n\r\n" ++ f.content)) := by simp
    rw [e] at h
    obtain ⟨q, hq⟩ := h
    rcases List.append_eq_append_iff.1 hq with ⟨m, h1, h2⟩ | ⟨m, h1, h2⟩
    · have hin : c!"--" <:+: c!"Content-Disposition" := ⟨b, m, h1.symm⟩
      exact absurd hin (by decide)
    · cases m with
      | nil =>
        rw [List.append_nil] at h1
        have hin : c!"--" <:+: c!"Content-Disposition" := ⟨b, [], by rw [List.append_nil]; exact h1⟩
        exact absurd hin (by decide)
      | cons x m =>
        simp only [List.cons_append, List.cons.injEq] at h2
        have : ':' ∈ b ++ c!"--" := by rw [h1, ← h2.1]; simp
        rcases List.mem_append.1 this with h | h
        · exact absurd rfl (hb.2 _ h).1
        · exact absurd h (by decide)
  have hne : (headerText f ++ (c!"\r\n\r\n" ++ f.content)).isEmpty = false := by simp
  simp only [multipartParts, hst, hend, hne, Bool.or_self, Bool.false_eq_true, if_false, splitOnce_header hf, field_eq X hX hf, bind, Except.bind]

theorem parts_all (X : Ext) (hX : LowersWords X) {b : Str} (hb : GoodBoundary b) : ∀ (fs : List Field), (∀ f ∈ fs, Sendable b f) → ∀ acc,
    multipartParts X b (fs.map formPart ++ [c!"--\r\n"]) acc = .ok (fs.reverse ++ acc)
  | [], _, acc => by
    have h1 : Str.strip c!"--\r\n" = c!"--" := by decide
    have h2 : Str.splitOnce c!"\r\n\r\n" c!"--" = none := by decide
    have h3 : Str.splitOnce c!"\n\n" c!"--" = none := by decide
    have h4 : Str.startsWith c!"--" (b ++ c!"--") = false := by
      rw [Bool.eq_false_iff]
      intro h
      rw [startsWith_iff] at h
      have := h.length_le
      rw [List.length_append] at this
      have := List.length_pos_of_ne_nil (good_ne hb)
      have h5 : (c!"--").length = 2 := rfl
      omega
    simp only [List.map_nil, List.nil_append, multipartParts, h1, h2, h3, h4, List.isEmpty_cons, Bool.or_self, Bool.false_eq_true, if_false, List.reverse_nil]
  | f :: fs, h, acc => by
    rw [List.map_cons, List.cons_append, parts_cons X hX hb (h f (by simp)), parts_all X hX hb fs (fun g hg => h g (by simp [hg]))]
    simp

/-- **C59 (partial).** A form of such fields is received as it was sent: every field, with its name, file name, type and content (the latest comes first). -/
theorem C59_form_received_partial (X : Ext) (hX : LowersWords X) (boundary : Str) (hb : GoodBoundary boundary) (fs : List Field) (hf : ∀ f ∈ fs, Sendable boundary f) :
    multipart X (form boundary fs) boundary = .ok fs.reverse := by
  unfold multipart form
  rw [split_join (c!"--" ++ boundary) (by simp) _ (by simp)]
  · have e : List.drop 1 ([] :: fs.map formPart ++ [c!"--\r\n"]) = fs.map formPart ++ [c!"--\r\n"] := rfl
    rw [e, parts_all X hX hb fs hf]
    simp
  · intro p hp
    rcases List.mem_append.1 hp with hp | hp
    · rcases List.mem_cons.1 hp with rfl | hp
      · intro k hk; simp at hk
      · obtain ⟨f, hff, rfl⟩ := List.mem_map.1 hp
        exact formPart_ends hb (hf f hff)
    · rw [List.mem_singleton.1 hp]
      exact last_ends hb

/-! The whole request. -/

/-- A request with a form: header lines, the type, the form. -/
def Spec.formRequest (headers : List Str) (boundary : Str) (fs : List Field) : Str :=
  (headers.map (· ++ c!"\r\n")).flatten ++ (c!"Content-Type: multipart/form-data; boundary=" ++ boundary ++ c!"\r\n\r\n" ++ form boundary fs)

/-- A header line: not empty, without line breaks, and not the type. -/
def Spec.OtherHeader (l : Str) : Prop := l ≠ [] ∧ (∀ c ∈ l, c ≠ '\r' ∧ c ≠ '\n') ∧ ¬ ∃ a r, l = a ++ r ∧ SameIgnoringCase a c!"Content-Type:"

theorem contentType_form (X : Ext) (hX : LowersWords X) {b : Str} (hb : GoodBoundary b) (rest : Str) : ∀ (headers : List Str), (∀ l ∈ headers, OtherHeader l) →
    contentType X (Str.lines ((headers.map (· ++ c!"\r\n")).flatten ++ (c!"Content-Type: multipart/form-data; boundary=" ++ b ++ c!"\r\n" ++ rest))) =
      some (c!"multipart/form-data; boundary=" ++ b)
  | [], _ => by
    have ht : Tight (c!"multipart/form-data; boundary=" ++ b) := by
      obtain ⟨_, y, hy, hwy⟩ := hb.1
      exact tight_append (x := 'm') rfl (by decide) hy hwy
    have hc : ∀ c ∈ c!"multipart/form-data; boundary=" ++ b, c ≠ ':' ∧ c ≠ '\n' := by
      intro c hc
      rcases List.mem_append.1 hc with hc | hc
      · have : ∀ c ∈ c!"multipart/form-data; boundary=", c ≠ ':' ∧ c ≠ '\n' := by decide
        exact this c hc
      · exact ⟨(hb.2 c hc).1, (hb.2 c hc).2.2.2⟩
    have e : c!"Content-Type: multipart/form-data; boundary=" ++ b ++ c!"\r\n" ++ rest = (c!"Content-Type: " ++ (c!"multipart/form-data; boundary=" ++ b)) ++ c!"\r\n" ++ rest := by simp
    have hw : Str.startsWith (X.lower (c!"Content-Type: " ++ (c!"multipart/form-data; boundary=" ++ b))) c!"content-type:" = true := by
      rw [hX _ _ (by decide)]
      rfl
    rw [List.map_nil, List.flatten_nil, List.nil_append, e, lines_crlf]
    · simp only [contentType, hw, if_true]
      exact typeLine_after ht fun c h => (hc c h).1
    · intro c h
      rcases List.mem_append.1 h with h | h
      · have : ∀ c ∈ c!"Content-Type: ", c ≠ '\n' := by decide
        exact this c h
      · exact (hc c h).2
  | l :: ls, h => by
    obtain ⟨_, h2, h3⟩ := h l (by simp)
    have hw : Str.startsWith (X.lower l) c!"content-type:" = false := by
      rw [Bool.eq_false_iff]
      intro hh
      exact h3 ((word_front X hX l c!"Content-Type:" (by decide)).1 hh)
    rw [List.map_cons, List.flatten_cons, List.append_assoc, lines_crlf _ _ fun c hc => (h2 c hc).2]
    simp only [contentType, hw, Bool.false_eq_true, if_false]
    exact contentType_form X hX hb rest ls fun m hm => h m (by simp [hm])

theorem body_form {b : Str} (hb : GoodBoundary b) (body : Str) : ∀ (headers : List Str), (∀ l ∈ headers, OtherHeader l) →
    ∃ h, Str.splitOnce c!"\r\n\r\n" ((headers.map (· ++ c!"\r\n")).flatten ++ (c!"Content-Type: multipart/form-data; boundary=" ++ b ++ c!"\r\n\r\n" ++ body)) = some (h, body)
  | [], _ => by
    have hhere : Str.splitOnce c!"\r\n\r\n" (c!"\r\n\r\n" ++ body) = some ([], body) := splitOnce_here '\r' c!"\n\r\n" body
    refine ⟨c!"Content-Type: multipart/form-data; boundary=" ++ b, ?_⟩
    rw [List.map_nil, List.flatten_nil, List.nil_append, List.append_assoc (c!"Content-Type: multipart/form-data; boundary=" ++ b), splitOnce_over '\r' c!"\n\r\n" _ _ ?_, hhere]
    · simp only [Option.map_some, List.append_nil]
    · intro c hc
      rcases List.mem_append.1 hc with hc | hc
      · have : ∀ c ∈ c!"Content-Type: multipart/form-data; boundary=", c ≠ '\r' := by decide
        exact this c hc
      · exact (hb.2 c hc).2.2.1
  | l :: ls, h => by
    obtain ⟨h1, h2, _⟩ := h l (by simp)
    obtain ⟨r, hr⟩ := body_form hb body ls fun m hm => h m (by simp [hm])
    rw [List.map_cons, List.flatten_cons, List.append_assoc, List.append_assoc, splitOnce_over '\r' c!"\n\r\n" _ _ fun c hc => (h2 c hc).1]
    -- what comes after the line break does not start with one
    have hnext : ∃ c rest', (ls.map (· ++ c!"\r\n")).flatten ++ (c!"Content-Type: multipart/form-data; boundary=" ++ b ++ c!"\r\n\r\n" ++ body) = c :: rest' ∧ c ≠ '\r' := by
      cases ls with
      | nil => exact ⟨'C', _, rfl, by decide⟩
      | cons l' ls =>
        obtain ⟨h1', h2', _⟩ := h l' (by simp)
        cases l' with
        | nil => exact absurd rfl h1'
        | cons c l' => exact ⟨c, _, rfl, (h2' c (by simp)).1⟩
    obtain ⟨c, rest', he, hc⟩ := hnext
    rw [he] at hr ⊢
    have : c!"\r\n" ++ c :: rest' = '\r' :: '\n' :: c :: rest' := rfl
    rw [this, splitOnce_crlf rest' c hc, hr]
    exact ⟨_, rfl⟩

theorem boundaryOf_form {b : Str} (hb : GoodBoundary b) : boundaryOf (Str.split (c!"multipart/form-data; boundary=" ++ b) c!";") = some b := by
  have e : c!"multipart/form-data; boundary=" ++ b = c!"multipart/form-data" ++ ';' :: (' ' :: (c!"boundary=" ++ b)) := by simp
  have hs : Str.split (c!"multipart/form-data" ++ ';' :: (' ' :: (c!"boundary=" ++ b))) c!";" = [c!"multipart/form-data", ' ' :: (c!"boundary=" ++ b)] := by
    rw [split_char_append]
    · rfl
    · intro c hc
      rcases List.mem_cons.1 hc with rfl | hc
      · decide
      · rcases List.mem_append.1 hc with hc | hc
        · have : ∀ c ∈ c!"boundary=", c ≠ ';' := by decide
          exact this c hc
        · exact (hb.2 c hc).2.1
  have ht : Tight (c!"boundary=" ++ b) := by
    obtain ⟨_, y, hy, hwy⟩ := hb.1
    exact tight_append (x := 'b') rfl (by decide) hy hwy
  have hp : Str.strip (' ' :: (c!"boundary=" ++ b)) = c!"boundary=" ++ b := by
    have := strip_pad [' '] (c!"boundary=" ++ b) [] (by decide) (by simp) ht
    simpa using this
  have h0 : Str.stripPrefix (Str.strip c!"multipart/form-data") c!"boundary=" = none := by decide
  rw [e, hs]
  simp only [boundaryOf, h0, hp, Str.stripPrefix_append]

/-- **C59 (partial).** The upload handler receives, from a request with the fields `filename` and `file`, that name and exactly that content. -/
theorem C59_upload_received_partial (X : Ext) (hX : LowersWords X) (H : HttpExt) (headers : List Str) (hh : ∀ l ∈ headers, OtherHeader l) (boundary : Str)
    (hb : GoodBoundary boundary) (name file : Str) (ctype : Option Str) (content : Str)
    (hn : Sendable boundary ⟨c!"filename", none, none, name⟩) (hf : Sendable boundary ⟨c!"file", some file, ctype, content⟩) :
    jsRequest X H (formRequest headers boundary [⟨c!"filename", none, none, name⟩, ⟨c!"file", some file, ctype, content⟩]) = .ok ⟨name, none, some content⟩ := by
  have hm := C59_form_received_partial X hX boundary hb [⟨c!"filename", none, none, name⟩, ⟨c!"file", some file, ctype, content⟩] (by simp [hn, hf])
  have hct : contentType X (Str.lines (formRequest headers boundary [⟨c!"filename", none, none, name⟩, ⟨c!"file", some file, ctype, content⟩])) = some (c!"multipart/form-data; boundary=" ++ boundary) := by
    have := contentType_form X hX hb (c!"\r\n" ++ form boundary [⟨c!"filename", none, none, name⟩, ⟨c!"file", some file, ctype, content⟩]) headers hh
    rw [← this]
    unfold formRequest
    simp
  obtain ⟨h, hbody⟩ := body_form hb (form boundary [⟨c!"filename", none, none, name⟩, ⟨c!"file", some file, ctype, content⟩]) headers hh
  have hrb : requestBody (formRequest headers boundary [⟨c!"filename", none, none, name⟩, ⟨c!"file", some file, ctype, content⟩]) =
      .ok (form boundary [⟨c!"filename", none, none, name⟩, ⟨c!"file", some file, ctype, content⟩]) := by
    unfold requestBody formRequest
    rw [hbody]
  have hw : Str.startsWith (X.lower (c!"multipart/form-data; boundary=" ++ boundary)) c!"multipart/form-data" = true := by
    rw [hX _ _ (by decide)]
    rfl
  unfold jsRequest
  simp only [hct, Option.getD_some, hw, if_true, boundaryOf_form hb, hrb, hm, bind, Except.bind]
  rfl

/-- A case: a function with a blank line in it. -/
example : Sendable c!"XX" ⟨c!"file", some c!"f.js", some c!"text/javascript", c!"// @name: F\r\n\r\nfunction execute(a) { return 1; }"⟩ ∧
    Sendable c!"XX" ⟨c!"filename", none, none, c!"f.js"⟩ ∧ GoodBoundary c!"XX" ∧ OtherHeader c!"POST /upload-js HTTP/1.1" := by
  refine ⟨⟨by decide, by unfold PlainName; decide, ?_, ?_, ⟨⟨'/', rfl, by decide⟩, '}', rfl, by decide⟩, by decide, by decide, by decide +kernel⟩,
    ⟨by decide, by unfold PlainName; decide, ?_, ?_, ⟨⟨'f', rfl, by decide⟩, 's', rfl, by decide⟩, by decide, by decide, by decide +kernel⟩,
    ⟨⟨⟨'X', rfl, by decide⟩, 'X', rfl, by decide⟩, by unfold PlainName; decide⟩, by decide, by decide, ?_⟩
  · intro n h; simp at h; subst h; unfold PlainName; decide
  · intro n h; simp at h; subst h; exact ⟨⟨⟨'t', rfl, by decide⟩, 't', rfl, by decide⟩, by decide⟩
  · intro n h; simp at h
  · intro n h; simp at h
  · rintro ⟨a, r, h, hs⟩
    have hl : a.length = 13 := by
      have := congrArg List.length hs
      simpa using this
    have : a = (c!"POST /upload-js HTTP/1.1").take 13 := by rw [h, ← hl]; simp
    rw [this] at hs
    exact absurd hs (by unfold SameIgnoringCase; decide)

/-- What is received for a field `file` of this content. -/
def Spec.received (X : Ext) (content : Str) : Option Str :=
  (multipart X (form c!"XX" [⟨c!"file", some c!"f.js", none, content⟩]) c!"XX").toOption.bind fun fs => fileField fs c!"file"

/-- **C59 fails.** White space around the content is lost, dashes at its end are lost, it ends where it contains the boundary, and an empty content is not received at all. -/
theorem C59_content_changed (X : Ext) :
    received X c!"  a\n" = some c!"a" ∧ received X c!"i--" = some c!"i" ∧ received X c!"a--XXb" = some c!"a" ∧ received X [] = none := by
  exact ⟨by kernel_rfl, by kernel_rfl, by kernel_rfl, by kernel_rfl⟩

/-- **C59 fails.** A file name with a colon or a semicolon is cut there, and a lone quote as a name makes the server panic. -/
theorem C59_names :
    disposition c!"Content-Disposition: form-data; name=\"file\"; filename=\"a;b.js\"" = .ok [(c!"filename", c!"\"a"), (c!"name", c!"file")] ∧
    disposition c!"Content-Disposition: form-data; name=\"file\"; filename=\"C:\\f.js\"" = .ok [(c!"filename", c!"\"C"), (c!"name", c!"file")] ∧
    (∃ p, disposition c!"Content-Disposition: form-data; name=\"" = .error (.panic p)) := by
  exact ⟨by kernel_rfl, by kernel_rfl, _, by rfl⟩
