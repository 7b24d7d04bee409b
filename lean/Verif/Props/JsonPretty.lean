import Verif.Model.JsonPretty
import Verif.Props.Wire
import Verif.Props.Output
import Verif.Props.NumText
/-! C139: the JSON that the command-line tools print. -/

namespace PrintedJson.Spec

mutual
/-- A JSON text without the whitespace between its parts. -/
def squeeze : Str → Str
  | [] => []
  | c :: r => if c = '"' then c :: inText r else if c = ' ' ∨ c = '\n' ∨ c = '\t' ∨ c = '\r' then squeeze r else c :: squeeze r
/-- After an opening quote: everything up to the closing one is kept. -/
def inText : Str → Str
  | [] => []
  | '\\' :: c :: r => '\\' :: c :: inText r
  | c :: r => if c = '"' then c :: squeeze r else c :: inText r
end

/-- The name of a value's type. -/
def typeName : Value → Str
  | .num _ => c!"Number"
  | .arr _ => c!"Array"
  | .bool _ => c!"Boolean"
  | .str _ => c!"String"
  | .null => c!"Null"
  | .cur _ => c!"Currency"
  | .dt _ => c!"DateTime"
  | .json _ => c!"Json"

end PrintedJson.Spec

namespace PrintedJson

open JsonText JsonText.Spec PrintedJson.Spec Output.Spec

/-! ### In the grammar -/

theorem blank_newLine (n : ℕ) : Blank (newLine n) := by
  intro c hc
  rcases List.mem_cons.1 hc with rfl | h
  · exact .inr (.inl rfl)
  · exact .inl (List.eq_of_mem_replicate h)

theorem blank_space : Blank c!" " := by intro c hc; exact .inl (List.mem_singleton.1 hc)

mutual
theorem pretty_val {N : Floats} : ∀ {j : Json}, Fits N j → ∀ n d, depth j ≤ d → Val N d j (pretty N n j)
  | _, .null, n, d, _ => by rw [pretty]; exact .null d
  | _, .bool true, n, d, _ => by rw [pretty]; exact .yes d
  | _, .bool false, n, d, _ => by rw [pretty]; exact .no d
  | _, .int h, n, d, _ => by rw [pretty]; exact .num d (.int _ h)
  | _, .float h, n, d, _ => by rw [pretty]; exact .num d (.float _ _ h.1 h.2.1 h.2.2)
  | _, .str s, n, d, _ => by rw [pretty, quote]; exact .str d (quoted_escape s)
  | _, .arr .nil, n, 0, hd => absurd hd (by rw [depth]; omega)
  | _, .arr .nil, n, d + 1, _ => by rw [pretty]; exact .arr0 d blank_nil
  | _, .arr (.cons h hs), n, 0, hd => absurd hd (by rw [depth]; omega)
  | _, .arr (.cons (j := j) (js := js) h hs), n, d + 1, hd => by
    simp only [depth, depthItems] at hd
    obtain ⟨t, e, hi⟩ := pretty_items hs n d j (pretty_val h (n + 1) d (by omega)) (by omega)
    rw [pretty, e]
    exact .arr hi
  | _, .obj .nil, n, 0, hd => absurd hd (by rw [depth]; omega)
  | _, .obj .nil, n, d + 1, _ => by rw [pretty]; exact .obj0 d blank_nil
  | _, .obj (.cons h hs), n, 0, hd => absurd hd (by rw [depth]; omega)
  | _, .obj (.cons (k := k) (j := j) (ms := ms) h hs), n, d + 1, hd => by
    simp only [depth, depthMembers] at hd
    obtain ⟨t, e, hi⟩ := pretty_members hs n d k j (pretty_val h (n + 1) d (by omega)) (by omega)
    rw [pretty, e]
    exact .obj hi
theorem pretty_items {N : Floats} : ∀ {js : List Json}, FitsItems N js → ∀ n d j, Val N d j (pretty N (n + 1) j) → depthItems js ≤ d →
    ∃ t, newLine (n + 1) ++ (pretty N (n + 1) j ++ prettyItems N n js) = t ++ [']'] ∧ Items N d (j :: js) t
  | _, .nil, n, d, j, h, hd => by
    refine ⟨newLine (n + 1) ++ (pretty N (n + 1) j ++ newLine n), by rw [prettyItems]; simp, ?_⟩
    exact .one (blank_newLine _) h (blank_newLine _)
  | _, .cons (j := k) (js := ks) hk hs, n, d, j, h, hd => by
    simp only [depthItems] at hd
    obtain ⟨t, e, hi⟩ := pretty_items hs n d k (pretty_val hk (n + 1) d (by omega)) (by omega)
    refine ⟨newLine (n + 1) ++ (pretty N (n + 1) j ++ ([] ++ ',' :: t)), by rw [prettyItems, e]; simp, ?_⟩
    exact .cons (blank_newLine _) h blank_nil hi
theorem pretty_members {N : Floats} : ∀ {ms : List (Str × Json)}, FitsMembers N ms → ∀ n d k j, Val N d j (pretty N (n + 1) j) → depthMembers ms ≤ d →
    ∃ t, newLine (n + 1) ++ (quote k ++ ':' :: ' ' :: (pretty N (n + 1) j ++ prettyMembers N n ms)) = t ++ ['}'] ∧ Members N d ((k, j) :: ms) t
  | _, .nil, n, d, k, j, h, hd => by
    refine ⟨newLine (n + 1) ++ '"' :: (k.flatMap escape ++ '"' :: ([] ++ ':' :: (c!" " ++ (pretty N (n + 1) j ++ newLine n)))), by rw [prettyMembers, quote]; simp, ?_⟩
    exact .one (blank_newLine _) (quoted_escape k) blank_nil blank_space h (blank_newLine _)
  | _, .cons (k := k') (j := j') (ms := ms) hk hs, n, d, k, j, h, hd => by
    simp only [depthMembers] at hd
    obtain ⟨t, e, hi⟩ := pretty_members hs n d k' j' (pretty_val hk (n + 1) d (by omega)) (by omega)
    refine ⟨newLine (n + 1) ++ '"' :: (k.flatMap escape ++ '"' :: ([] ++ ':' :: (c!" " ++ (pretty N (n + 1) j ++ ([] ++ ',' :: t))))), by rw [prettyMembers, e, quote]; simp, ?_⟩
    exact .cons (blank_newLine _) (quoted_escape k) blank_nil blank_space h blank_nil hi
end

theorem pretty_text {N : Floats} {j : Json} (h : Fits N j) {d : ℕ} (hd : depth j ≤ d) : Text N d j (pretty N 0 j ++ ['\n']) :=
  ⟨[], pretty N 0 j, ['\n'], by simp, blank_nil, pretty_val h 0 d hd, by intro c hc; exact .inr (.inl (List.mem_singleton.1 hc))⟩

/-! ### The compact text -/

theorem squeeze_blank {w : Str} (h : Blank w) (r : Str) : squeeze (w ++ r) = squeeze r := by
  induction w with
  | nil => rfl
  | cons c w ih =>
    have hc := h c (by simp)
    have hq : c ≠ '"' := by rcases hc with rfl | rfl | rfl | rfl <;> decide
    rw [List.cons_append, squeeze, if_neg hq, if_pos hc]
    exact ih fun x hx => h x (by simp [hx])

/-- A character that is kept outside of texts. -/
def Keep (c : Char) : Prop := c ≠ '"' ∧ ¬ (c = ' ' ∨ c = '\n' ∨ c = '\t' ∨ c = '\r')

theorem squeeze_keep {w : Str} (h : ∀ c ∈ w, Keep c) (r : Str) : squeeze (w ++ r) = w ++ squeeze r := by
  induction w with
  | nil => rfl
  | cons c w ih =>
    have hc := h c (by simp)
    rw [List.cons_append, squeeze, if_neg hc.1, if_neg hc.2, ih fun x hx => h x (by simp [hx])]
    rfl

theorem keep_digit {c : Char} (h : '0' ≤ c ∧ c ≤ '9') : Keep c := by
  refine ⟨?_, ?_⟩
  · rintro rfl; exact absurd h.1 (by decide)
  · rintro (rfl | rfl | rfl | rfl) <;> exact absurd h.1 (by decide)

theorem keep_sign {s : Str} (h : s = [] ∨ s = c!"+" ∨ s = c!"-") : ∀ c ∈ s, Keep c := by
  rcases h with rfl | rfl | rfl
  · simp
  · intro c hc; rw [List.mem_singleton.1 hc]; unfold Keep; decide
  · intro c hc; rw [List.mem_singleton.1 hc]; unfold Keep; decide

theorem keep_append {a b : Str} (ha : ∀ c ∈ a, Keep c) (hb : ∀ c ∈ b, Keep c) : ∀ c ∈ a ++ b, Keep c := by
  intro c hc
  exact (List.mem_append.1 hc).elim (ha c) (hb c)

theorem keep_cons {a : Char} {b : Str} (ha : Keep a) (hb : ∀ c ∈ b, Keep c) : ∀ c ∈ a :: b, Keep c := by
  intro c hc
  rcases List.mem_cons.1 hc with rfl | h
  · exact ha
  · exact hb c h

theorem keep_number {t : Str} (h : NumberText t) : ∀ c ∈ t, Keep c := by
  obtain ⟨sign, ds, f, e, hs, hd, hf, he, rfl⟩ := h
  have hds : ∀ {d : Str}, Digits d → ∀ c ∈ d, Keep c := fun h c hc => keep_digit (h.2 c hc)
  refine keep_append (keep_sign (by rcases hs with h | h <;> simp [h])) (keep_append (hds hd.1) (keep_append ?_ ?_))
  · cases hf with
    | none => simp
    | some h => exact keep_cons (by unfold Keep; decide) (hds h)
  · cases he with
    | none => simp
    | some hc hs h => exact keep_cons (by rcases hc with rfl | rfl <;> (unfold Keep; decide)) (keep_append (keep_sign hs) (hds h))

theorem keep_int (i : ℤ) : ∀ c ∈ Str.showInt i, Keep c := by
  obtain ⟨neg, ds, hd, e⟩ := showInt_parts i
  rw [e]
  exact keep_append (keep_sign (by cases neg; exact .inl rfl; exact .inr (.inr rfl))) fun c hc => keep_digit (hd.1.2 c hc)

theorem inText_plain {c : Char} (h1 : c ≠ '\\') (h2 : c ≠ '"') (r : Str) : inText (c :: r) = c :: inText r := by
  rw [inText.eq_def]
  split
  · rename_i h; cases h
  · rename_i h; injection h with h _; exact absurd h h1
  · rename_i h; injection h with h h'; subst h; subst h'; rw [if_neg h2]

theorem inText_escape (c : Char) (r : Str) : inText (escape c ++ r) = escape c ++ inText r := by
  have hd : ∀ n : Fin 16, Nat.digitChar n.val ≠ '\\' ∧ Nat.digitChar n.val ≠ '"' := by decide
  have two : ∀ a : Char, inText (['\\', a] ++ r) = ['\\', a] ++ inText r := fun a => by
    show inText ('\\' :: a :: r) = _
    rw [inText]; rfl
  unfold escape
  by_cases h1 : c = '"'
  · rw [if_pos h1]; exact two _
  rw [if_neg h1]
  by_cases h2 : c = '\\'
  · rw [if_pos h2]; exact two _
  rw [if_neg h2]
  by_cases h3 : c = '\x08'
  · rw [if_pos h3]; exact two _
  rw [if_neg h3]
  by_cases h4 : c = '\x0c'
  · rw [if_pos h4]; exact two _
  rw [if_neg h4]
  by_cases h5 : c = '\n'
  · rw [if_pos h5]; exact two _
  rw [if_neg h5]
  by_cases h6 : c = '\r'
  · rw [if_pos h6]; exact two _
  rw [if_neg h6]
  by_cases h7 : c = '\t'
  · rw [if_pos h7]; exact two _
  rw [if_neg h7]
  by_cases h8 : c.toNat < 32
  · rw [if_pos h8]
    have a := hd ⟨c.toNat / 16, by omega⟩
    have b := hd ⟨c.toNat % 16, by omega⟩
    show inText ('\\' :: 'u' :: '0' :: '0' :: Nat.digitChar (c.toNat / 16) :: Nat.digitChar (c.toNat % 16) :: r) = _
    rw [inText, inText_plain (by decide) (by decide), inText_plain (by decide) (by decide), inText_plain a.1 a.2, inText_plain b.1 b.2]
    rfl
  · rw [if_neg h8]
    exact inText_plain h2 h1 r

theorem inText_escapes (s r : Str) : inText (s.flatMap escape ++ '"' :: r) = s.flatMap escape ++ '"' :: squeeze r := by
  induction s with
  | nil =>
    show inText ('"' :: r) = '"' :: squeeze r
    rw [inText.eq_def]
    rfl
  | cons c s ih => rw [List.flatMap_cons, List.append_assoc, inText_escape, ih, List.append_assoc]

theorem squeeze_quote (s r : Str) : squeeze (quote s ++ r) = quote s ++ squeeze r := by
  unfold quote
  show squeeze ('"' :: ((s.flatMap escape ++ ['"']) ++ r)) = _
  rw [squeeze, if_pos rfl, List.append_assoc]
  show '"' :: inText (s.flatMap escape ++ '"' :: r) = _
  rw [inText_escapes]
  simp

theorem squeeze_one {c : Char} (h : Keep c) (r : Str) : squeeze (c :: r) = c :: squeeze r := squeeze_keep (w := [c]) (fun x hx => List.mem_singleton.1 hx ▸ h) r

theorem squeeze_lit {w : Str} (h : w.all (fun c => decide (c ≠ '"' ∧ ¬ (c = ' ' ∨ c = '\n' ∨ c = '\t' ∨ c = '\r'))) = true) (r : Str) : squeeze (w ++ r) = w ++ squeeze r :=
  squeeze_keep (fun c hc => by simpa [Keep] using List.all_eq_true.1 h c hc) r

mutual
theorem squeeze_pretty {N : Floats} : ∀ {j : Json}, Fits N j → ∀ n r, squeeze (pretty N n j ++ r) = print N j ++ squeeze r
  | _, .null, n, r => by rw [pretty, print]; exact squeeze_lit (by decide) r
  | _, .bool true, n, r => by rw [pretty, print]; exact squeeze_lit (by decide) r
  | _, .bool false, n, r => by rw [pretty, print]; exact squeeze_lit (by decide) r
  | _, .int h, n, r => by rw [pretty, print]; exact squeeze_keep (keep_int _) r
  | _, .float h, n, r => by rw [pretty, print]; exact squeeze_keep (keep_number h.1) r
  | _, .str s, n, r => by rw [pretty, print]; exact squeeze_quote s r
  | _, .arr .nil, n, r => by rw [pretty, print]; exact squeeze_lit (by decide) r
  | _, .arr (.cons h hs), n, r => by
    rw [pretty, print, List.cons_append, squeeze_one (by unfold Keep; decide), List.append_assoc, squeeze_blank (blank_newLine _), List.append_assoc, squeeze_pretty h,
      squeeze_prettyItems hs]
    simp
  | _, .obj .nil, n, r => by rw [pretty, print]; exact squeeze_lit (by decide) r
  | _, .obj (.cons h hs), n, r => by
    rw [pretty, print, List.cons_append, squeeze_one (by unfold Keep; decide), List.append_assoc, squeeze_blank (blank_newLine _), List.append_assoc, squeeze_quote,
      List.cons_append, squeeze_one (by unfold Keep; decide), List.cons_append]
    rw [show ∀ t : Str, (' ' :: t) = c!" " ++ t from fun _ => rfl, squeeze_blank blank_space, List.append_assoc, squeeze_pretty h, squeeze_prettyMembers hs]
    simp
theorem squeeze_prettyItems {N : Floats} : ∀ {js : List Json}, FitsItems N js → ∀ n r, squeeze (prettyItems N n js ++ r) = printItems N js ++ squeeze r
  | _, .nil, n, r => by rw [prettyItems, printItems, List.append_assoc, squeeze_blank (blank_newLine _)]; exact squeeze_lit (by decide) r
  | _, .cons h hs, n, r => by
    rw [prettyItems, printItems, List.cons_append, squeeze_one (by unfold Keep; decide), List.append_assoc, squeeze_blank (blank_newLine _), List.append_assoc, squeeze_pretty h,
      squeeze_prettyItems hs]
    simp
theorem squeeze_prettyMembers {N : Floats} : ∀ {ms : List (Str × Json)}, FitsMembers N ms → ∀ n r, squeeze (prettyMembers N n ms ++ r) = printMembers N ms ++ squeeze r
  | _, .nil, n, r => by rw [prettyMembers, printMembers, List.append_assoc, squeeze_blank (blank_newLine _)]; exact squeeze_lit (by decide) r
  | _, .cons h hs, n, r => by
    rw [prettyMembers, printMembers, List.cons_append, squeeze_one (by unfold Keep; decide), List.append_assoc, squeeze_blank (blank_newLine _), List.append_assoc, squeeze_quote,
      List.cons_append, squeeze_one (by unfold Keep; decide), List.cons_append]
    rw [show ∀ t : Str, (' ' :: t) = c!" " ++ t from fun _ => rfl, squeeze_blank blank_space, List.append_assoc, squeeze_pretty h, squeeze_prettyMembers hs]
    simp
end

/-! ### The property -/

/-- **C139.** The printed form of a document is a JSON text of it, and of nothing else; and it differs from the compact form by whitespace between the parts only. -/
theorem C139_pretty (N : Floats) (j : Json) (h : Fits N j) :
    Text N (depth j) j (pretty N 0 j ++ ['\n']) ∧ (∀ d j', Text N d j' (pretty N 0 j ++ ['\n']) → j' = j) ∧ squeeze (pretty N 0 j ++ ['\n']) = print N j := by
  refine ⟨pretty_text h le_rfl, fun d j' h' => text_unique h' (pretty_text h le_rfl), ?_⟩
  rw [squeeze_pretty h]
  have : squeeze ['\n'] = [] := by decide
  rw [this, List.append_nil]

/-- A document that is printed is read as it was, by a reader that allows its nesting. -/
theorem pretty_read {N : Floats} {j : Json} (h : Sound N j) (hd : depth j ≤ 127) : parse N (pretty N 0 j ++ ['\n']) = some j :=
  (C127_reads N _ j).2 ⟨j, pretty_text h.fits hd, norm_iff.1 (norm_sound h)⟩

theorem sk_text (X : Ext) (N : Floats) (time : Str) (v : Value) (hs : Sound N (Cli.jsonResult X v).1) (hd : depth (Cli.jsonResult X v).1 ≤ 126) :
    parse N ((Cli.Outcome.printed v true).printedText X N time) =
      some (.obj [(c!"execution_time", .str time), (c!"result", (Cli.jsonResult X v).1), (c!"type", .str (typeName v))]) := by
  have ht : (Cli.jsonResult X v).2 = typeName v := by cases v <;> rfl
  unfold Cli.Outcome.printedText Cli.Outcome.stdout
  simp only [ht]
  refine pretty_read (.obj (.cons (.str _) (.cons hs (.cons (.str _) .nil))) (show List.Pairwise _ [c!"execution_time", c!"result", c!"type"] by decide)) ?_
  simp only [depth, depthMembers]
  omega

/-- **C139.** What `sk --output-json` prints is a JSON text of an object with the time, the result and the name of its type; a run that fails prints nothing.
`Ordinary` excludes dates outside of 64 bits, documents nested deeper than 124 and numbers that the reader does not read back. -/
theorem C139_sk (X : Ext) (N : Floats) (hu : Uses X N) (reg : Registry) (args : List Str) (time : Str) :
    (∀ v, Cli.run X reg args = .printed v true → Wire.Spec.Ordinary N v →
      ∃ r, Cli.jsonOutput X v = .obj [(c!"result", r), (c!"type", .str (typeName v))] ∧
        parse N ((Cli.run X reg args).printedText X N time) = some (.obj [(c!"execution_time", .str time), (c!"result", r), (c!"type", .str (typeName v))])) ∧
    ((Cli.run X reg args).status ≠ 0 → (Cli.run X reg args).printedText X N time = []) := by
  constructor
  · intro v hv ho
    have ht : (Cli.jsonResult X v).2 = typeName v := by cases v <;> rfl
    have hj : Cli.jsonOutput X v = .obj [(c!"result", (Cli.jsonResult X v).1), (c!"type", .str (typeName v))] := by rw [← ht]; rfl
    have hr := Wire.C128_results X N hu v ho (some true)
    rw [← Output.C89_sk, hj] at hr
    refine ⟨_, hj, ?_⟩
    rw [hv]
    refine sk_text X N time v ?_ ?_
    · cases hr.1 with
      | obj hm _ => cases hm with
        | cons h _ => exact h
    · have := hr.2
      simp only [depth, depthMembers] at this
      omega
  · intro h
    cases hr : Cli.run X reg args with
    | printed v b => rw [hr] at h; exact absurd rfl h
    | _ => rfl

theorem element_sound {N : Floats} (X : Ext) {v : Value} (h : Sendable v) (hx : ∀ x ∈ numbers v, FloatBack N x) : Sound N (Cli.jsonElement X v) ∧ depth (Cli.jsonElement X v) = 0 := by
  cases h with
  | num hf =>
    rename_i n
    simp only [Cli.jsonElement, Json.ofF64, hf, if_true]
    exact ⟨.float (hx n (by simp [numbers])), rfl⟩
  | str s => exact ⟨.str _, rfl⟩
  | bool b => exact ⟨.bool _, rfl⟩
  | null => exact ⟨.null, rfl⟩
  | arr _ => exact ⟨.str _, rfl⟩

theorem elements_sound {N : Floats} (X : Ext) : ∀ vs : List Value, (∀ v ∈ vs, Sendable v) → (∀ x ∈ numbersAll vs, FloatBack N x) →
    SoundItems N (vs.map (Cli.jsonElement X)) ∧ depthItems (vs.map (Cli.jsonElement X)) = 0
  | [], _, _ => ⟨.nil, rfl⟩
  | v :: vs, h, hx => by
    simp only [numbersAll, List.mem_append] at hx
    have h1 := element_sound X (h v (by simp)) fun x hm => hx x (.inl hm)
    have h2 := elements_sound X vs (fun w hw => h w (by simp [hw])) fun x hm => hx x (.inr hm)
    exact ⟨.cons h1.1 h2.1, by simp [depthItems, h1.2, h2.2]⟩

/-- **C139.** Of a flat value that JSON can carry, the result that is printed is read as that value, by every reader that reads its numbers as they were written. -/
theorem C139_sk_values (X : Ext) (N : Floats) (reg : Registry) (args : List Str) (time : Str) (v : Value) (hv : Cli.run X reg args = .printed v true) (h : Sendable v)
    (hn : ¬ Nested v) (hx : ∀ x ∈ numbers v, FloatBack N x) :
    ∃ r, parse N ((Cli.run X reg args).printedText X N time) = some (.obj [(c!"execution_time", .str time), (c!"result", r), (c!"type", .str (typeName v))]) ∧
      Json.toValue X r = v := by
  obtain ⟨r, t, hj, hr⟩ := Output.C89_sk_round_trip_partial X v h hn
  have hj' : Cli.jsonOutput X v = .obj [(c!"result", (Cli.jsonResult X v).1), (c!"type", .str (Cli.jsonResult X v).2)] := rfl
  rw [hj'] at hj
  injection hj with hj
  injection hj with hj _
  injection hj with _ hj
  refine ⟨(Cli.jsonResult X v).1, ?_, hj ▸ hr⟩
  rw [hv]
  have key : Sound N (Cli.jsonResult X v).1 ∧ depth (Cli.jsonResult X v).1 ≤ 126 := by
    cases h with
    | arr hs =>
      have := elements_sound (N := N) X _ hs (by simpa [numbers] using hx)
      exact ⟨.arr this.1, by simp only [Cli.jsonResult, depth]; omega⟩
    | num hf => have := element_sound (N := N) X (.num hf) hx; exact ⟨this.1, this.2.le.trans (by norm_num)⟩
    | str s => exact ⟨.str _, by simp [Cli.jsonResult, depth]⟩
    | bool b => exact ⟨.bool _, by simp [Cli.jsonResult, depth]⟩
    | null => exact ⟨.null, by simp [Cli.jsonResult, depth]⟩
  exact sk_text X N time v key.1 key.2

/-- **C139.** A program that rounds correctly reads every finite number that `sk` prints as exactly the result of the evaluation. -/
theorem C139_sk_number (X : Ext) (N : Floats) (hN : NumText.JsonStd N) (reg : Registry) (args : List Str) (time : Str) (x : F64) (hd : Spec.IsDouble x)
    (hv : Cli.run X reg args = .printed (.num x) true) (hf : x.isFinite = true) :
    parse N ((Cli.run X reg args).printedText X N time) =
      some (.obj [(c!"execution_time", .str time), (c!"result", .num (.float x)), (c!"type", .str c!"Number")]) := by
  have hb := _root_.C137_json N hN x hd hf
  have e : (Cli.jsonResult X (.num x)).1 = .num (.float x) := by simp [Cli.jsonResult, Json.ofF64, hf]
  rw [hv, sk_text X N time (.num x) (by rw [e]; exact .float hb) (by rw [e]; simp [depth]), e]
  rfl

open Wire Wire.Spec in
/-- **C139.** What `sk_client` prints is a JSON text of the result that the server found. -/
theorem C139_client (X : Ext) (N : Floats) (order order' : Order) (ho : Shuffles order) (ho' : Shuffles order') (why : Str → Str) (reg : Registry) (token : Option Str)
    (time : F64) (ht : FloatBack N time) (id : ℕ) (hi : id < 2 ^ 64) (env : Option Str) (expr : Str) (as : List Client.Spec.Word) (h : ∀ a ∈ as, a.ok X)
    (hj : Client.Spec.document as = none) (hb : as = [] ∨ expr ≠ c!"--benchmark") (hk : ∀ t, token = some t → ((Client.Spec.tokenOf as).or env).getD [] = t)
    (hv : ∀ n t j, Client.Spec.Word.set n t j ∈ as → Sound N j ∧ depth j ≤ 125) (hu : Uses X N) :
    (∀ v, FrontEnds.Spec.worth X reg expr (Client.Spec.given X as) = .ok v → Ordinary N v →
      parse N ((run X (sendRequest X N order (setup N order' why reg token) time id) env (expr :: as.flatMap Client.Spec.Word.words)).stdout N) =
        some (Tcp.resultJson X (some (Client.Spec.wantsJson as)) v)) ∧
    (∀ f, FrontEnds.Spec.worth X reg expr (Client.Spec.given X as) = .error f →
      (run X (sendRequest X N order (setup N order' why reg token) time id) env (expr :: as.flatMap Client.Spec.Word.words)).stdout N = []) := by
  constructor
  · intro v hw hov
    have hres := C128_results X N hu v hov (some (Client.Spec.wantsJson as))
    rw [C128_client X N order order' ho ho' why reg token time ht id hi env expr as h hj hb hk hv
      (by intro w hw'; rw [hw] at hw'; cases hw'; exact hres), hw]
    exact pretty_read hres.1 (hres.2.trans (by norm_num))
  · intro f hw
    rw [C128_client X N order order' ho ho' why reg token time ht id hi env expr as h hj hb hk hv (by intro w hw'; rw [hw] at hw'; cases hw'), hw]
    cases f <;> rfl

/-! ### Cases -/

/-- What is printed for an array with a boolean, a text and an empty array. -/
example (X : Ext) : (Cli.run X Registry.empty [c!"[true, \"a \\\" b\", []]", c!"--output-json"]).printedText X halves c!"0.12 ms" =
    c!"{\n  \"execution_time\": \"0.12 ms\",\n  \"result\": [\n    true,\n    \"a \\\" b\",\n    \"Array([])\"\n  ],\n  \"type\": \"Array\"\n}\n" := by kernel_rfl

/-- Runs that meet the hypotheses of `C139_sk_number` and of `C139_sk_values`. -/
example (X : Ext) : Cli.run X Registry.empty [c!"1 / 3", c!"--output-json"] = .printed (.num (F64.div (F64.ofInt 1) (F64.ofInt 3))) true ∧
    Cli.run X Registry.empty [c!"[:a, 2]", c!"a=x", c!"--output-json"] = .printed (.arr [.str c!"x", .num (.fin 2)]) true := ⟨by kernel_rfl, by kernel_rfl⟩

example : (F64.div (F64.ofInt 1) (F64.ofInt 3)).isFinite = true ∧ Sendable (.arr [.str c!"x", .num (.fin 2)]) ∧ ¬ Nested (.arr [.str c!"x", .num (.fin 2)]) := by
  refine ⟨by decide +kernel, .arr ?_, ?_⟩
  · intro v hv
    simp only [List.mem_cons, List.not_mem_nil, or_false] at hv
    rcases hv with rfl | rfl
    · exact .str _
    · exact .num rfl
  · rintro ⟨v, hv, ws, rfl⟩
    simp at hv

/-- A document with all kinds of parts. -/
example : squeeze (pretty halves 0 (.obj [(c!"a b", .arr [.null, .arr [], .obj []]), (c!"c", .str c!" \" ")])) = c!"{\"a b\":[null,[],{}],\"c\":\" \\\" \"}" := by kernel_rfl

end PrintedJson
