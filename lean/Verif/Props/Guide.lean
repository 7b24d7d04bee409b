import Verif.Props.ConvMethods
import Verif.Props.Texts
import Verif.Lemmas.Utf8
/-! C133: the null-safe idioms of the user guide (`DOCUMENTATION.md:1113-1375`), for every value they may meet. The texts evaluated here are
the guide's, with the data given as variables. -/

open Lib Spec

namespace Spec

/-- The texts that are empty, the arrays that are empty, null, `false` and the zeros: what the guide calls falsy. -/
inductive Falsy : Value → Prop
  | null : Falsy .null
  | no : Falsy (.bool false)
  | text : Falsy (.str [])
  | array : Falsy (.arr [])
  | zero {x : F64} : HasValue x 0 → Falsy (.num x)
  | nothing {x : F64} : HasValue x 0 → Falsy (.cur x)

/-- `DateIs X d t`: the document `d` has a member `date`, which is null (`t = none`) or the text `t`. -/
def DateIs (X : Ext) (d : Value) : Option Str → Prop
  | none => ∃ s j, d = .json s ∧ X.jsonParse s = .ok j ∧ j.get c!"date" = some .null
  | some t => ∃ s j, d = .json s ∧ X.jsonParse s = .ok j ∧ j.get c!"date" = some (.str t)

/-- A value that is null (`none`) or a text. -/
def orText : Option Str → Value
  | none => .null
  | some s => .str s

/-- The number of bytes of a text in UTF-8. -/
def bytes (s : Str) : ℕ := (s.flatMap String.utf8EncodeChar).length

end Spec

theorem byteLen_bytes (s : Str) : Str.byteLen s = bytes s := by
  induction s with
  | nil => rfl
  | cons c s ih =>
    rw [bytes, List.flatMap_cons, List.length_append, HttpRead.encode_length, ← bytes, ← ih]; rfl

theorem evaluateWith_of {t : Str} {e : Expr} (X : Ext) (env : Env) (h : parse t = .ok e) : evaluateWith X t env = Eval.eval X e none env := by
  simp only [evaluateWith, h, bind, Except.bind, evalVars]

theorem exec_to_s (X : Ext) (r : Option Registry) (env : Env) (v : Value) (as : List Arg) :
    Method.exec X r env c!"to_s" false v as = .ok (.str (Method.toText X v)) := by kernel_rfl
theorem exec_to_i (X : Ext) (r : Option Registry) (env : Env) (v : Value) (as : List Arg) :
    Method.exec X r env c!"to_i" false v as = .ok (.num (Method.toInt v)) := by kernel_rfl
theorem exec_to_f (X : Ext) (r : Option Registry) (env : Env) (v : Value) (as : List Arg) :
    Method.exec X r env c!"to_f" false v as = .ok (.num (Method.toFloat v)) := by kernel_rfl
theorem exec_to_a (X : Ext) (r : Option Registry) (env : Env) (v : Value) (as : List Arg) :
    Method.exec X r env c!"to_a" false v as = .ok (.arr (Method.toArray v)) := by kernel_rfl
theorem exec_to_bool (X : Ext) (r : Option Registry) (env : Env) (v : Value) (as : List Arg) :
    Method.exec X r env c!"to_bool" false v as = .ok (.bool (Method.toBoolean v)) := by kernel_rfl
theorem exec_str_length (X : Ext) (r : Option Registry) (env : Env) (s : Str) (as : List Arg) :
    Method.exec X r env c!"length" false (.str s) as = .ok (.num (F64.ofNat (Str.byteLen s))) := by kernel_rfl
theorem exec_arr_length (X : Ext) (r : Option Registry) (env : Env) (l : List Value) (as : List Arg) :
    Method.exec X r env c!"length" false (.arr l) as = .ok (.num (F64.ofNat l.length)) := by kernel_rfl
theorem exec_null_length (X : Ext) (r : Option Registry) (env : Env) (as : List Arg) :
    Method.exec X r env c!"length" false .null as = fail "No methods available for {:?} type" [X.dbg .null] := by kernel_rfl
theorem exec_str_trim (X : Ext) (r : Option Registry) (env : Env) (s : Str) (as : List Arg) :
    Method.exec X r env c!"trim" false (.str s) as = .ok (.str (Str.trim Str.isWs s)) := by kernel_rfl
theorem exec_arr_filter (X : Ext) (r : Option Registry) (env : Env) (l : List Value) (as : List Arg) :
    Method.exec X r env c!"filter" false (.arr l) as = Method.filter r env l as := by kernel_rfl
theorem exec_arr_map (X : Ext) (r : Option Registry) (env : Env) (l : List Value) (as : List Arg) :
    Method.exec X r env c!"map" false (.arr l) as = Method.map r env l as := by kernel_rfl

theorem zero_lt_ofNat {n : ℕ} (h : n ≠ 0) : F64.key (.zero false) < F64.key (F64.ofNat n) := by
  have h1 : F64.key (.fin 1) ≤ F64.key (F64.ofNat n) := by
    have b1 : IsBin64 1 := ⟨1, 0, by norm_num, by norm_num, by norm_num, by norm_num⟩
    have := F64.le_key_round b1 (q := (((n : ℕ) : ℤ) : ℚ)) (by exact_mod_cast Nat.one_le_iff_ne_zero.2 h) false
    exact this
  exact lt_of_lt_of_le (by decide +kernel) h1

theorem feq_ofNat_zero (n : ℕ) : F64.feq (F64.ofNat n) (.zero false) = decide (n = 0) := by
  by_cases h : n = 0
  · subst h; rfl
  · rw [decide_eq_false h]
    have := zero_lt_ofNat h
    rw [Bool.eq_false_iff, ne_eq, F64.feq_iff]
    rintro ⟨-, -, he⟩
    exact absurd he this.ne'

theorem fgt_ofNat_zero (n : ℕ) : F64.fgt (F64.ofNat n) (.zero false) = decide (n ≠ 0) := by
  by_cases h : n = 0
  · subst h; rfl
  · rw [decide_eq_true h]
    exact (F64.flt_iff _ _).2 ⟨by simp, F64.round_ne_nan _ _, zero_lt_ofNat h⟩

theorem byteLen_zero (s : Str) : Str.byteLen s = 0 ↔ s = [] := by
  cases s with
  | nil => simp [Str.byteLen]
  | cons c s =>
    have := width_pos c
    simp [Str.byteLen]; omega

/-- `:value.to_s().length()` is a number whatever the value is (the guide: "always returns a number"): 0 for null, the number of bytes of a text. -/
theorem C133_length (X : Ext) (env : Env) (v : Value) (h : env c!"value" = some v) :
    ∃ n : ℕ, evaluateWith X c!":value.to_s().length()" env = .ok (.num (F64.ofNat n)) ∧ (v = .null → n = 0) ∧ ∀ s, v = .str s → n = bytes s := by
  refine ⟨Str.byteLen (Method.toText X v), ?_, ?_, ?_⟩
  · rw [evaluateWith_of X env (e := .method (.method (.var c!"value") c!"to_s" [] false) c!"length" [] false) (by kernel_rfl)]
    simp only [Eval.eval, h, bind, Except.bind, exec_to_s, exec_str_length]
  · rintro rfl; rfl
  · rintro s rfl; exact byteLen_bytes s

/-- `:number.to_i() + 10` is ten more than what `to_i` gives, whatever the value is ("always performs addition"). -/
theorem C133_plus (X : Ext) (env : Env) (v : Value) (h : env c!"number" = some v) :
    ∃ x, meth0 X v c!"to_i" = .ok (.num x) ∧ evaluateWith X c!":number.to_i() + 10" env = .ok (.num (F64.add x (F64.ofNat 10))) := by
  refine ⟨_, (conv_to_i X v).1, ?_⟩
  rw [evaluateWith_of X env (e := .binary (.method (.var c!"number") c!"to_i" [] false) .add (.number (F64.ofNat 10))) (by kernel_rfl)]
  simp only [Eval.eval, h, bind, Except.bind, exec_to_i, Ops.binary, Value.asNumber, Ops.arith]

theorem mapM_ok {α β : Type} (f : α → Res β) (g : α → β) (l : List α) (h : ∀ a ∈ l, f a = .ok (g a)) : l.mapM f = .ok (l.map g) := by
  induction l with
  | nil => rfl
  | cons a l ih =>
    rw [List.mapM_cons, h a (by simp), ih (fun b hb => h b (by simp [hb]))]; rfl

theorem method_map (X : Ext) (env : Env) (d : Str) (items : List Value) (lam : Expr) (g : Value → Value) (h : env d = some (.arr items))
    (hl : ∀ v ∈ items, Legacy.eval X lam none (env.insert c!"x" v) = .ok (g v)) :
    Eval.eval X (.method (.var d) c!"map" [lam] false) none env = .ok (.arr (items.map g)) := by
  simp only [Eval.eval, h, bind, Except.bind, exec_arr_map, Method.map, Legacy.argsOf_eq, List.map_cons, List.map_nil, Legacy.argOf_run, List.head?_nil,
    Method.paramName, Loop.map_eq]
  rw [mapM_ok _ g items hl]; rfl

theorem select_bools (g : Value → Bool) (items : List Value) : select items (items.map fun v => .bool (g v)) = items.filter g := by
  induction items with
  | nil => rfl
  | cons v items ih =>
    simp only [select, List.map_cons, List.zip_cons_cons, List.filter_cons, _root_.isTrue] at ih ⊢
    split <;> simp [ih]

theorem method_filter (X : Ext) (env : Env) (d : Str) (items : List Value) (lam : Expr) (g : Value → Bool) (h : env d = some (.arr items))
    (hl : ∀ v ∈ items, Legacy.eval X lam none (env.insert c!"x" v) = .ok (.bool (g v))) :
    Eval.eval X (.method (.var d) c!"filter" [lam] false) none env = .ok (.arr (items.filter g)) := by
  simp only [Eval.eval, h, bind, Except.bind, exec_arr_filter, Method.filter, Legacy.argsOf_eq, List.map_cons, List.map_nil, Legacy.argOf_run, List.head?_nil,
    Method.paramName, Loop.filter_eq]
  rw [mapM_ok _ (fun v => .bool (g v)) items hl]
  simp only [Except.map, pure, Except.pure]
  rw [select_bools]

theorem forall₂_map {R : Value → Value → Prop} (g : Value → Value) (h : ∀ v, R v (g v)) : ∀ items : List Value, List.Forall₂ R items (items.map g)
  | [] => .nil
  | v :: vs => .cons (h v) (forall₂_map g h vs)

theorem fne_zero_value (x : F64) : F64.fne x (.zero false) = false ↔ HasValue x 0 := by
  cases x with
  | fin p => simp only [F64.fne, F64.feq, F64.toRat, HasValue, Bool.not_eq_false']; exact decide_eq_true_iff
  | _ => simp [F64.fne, F64.feq, HasValue, F64.toRat]

theorem falsy_iff (v : Value) : Method.toBoolean v = false ↔ Falsy v := by
  constructor
  · intro h
    cases v with
    | null => exact .null
    | bool b => simp only [Method.toBoolean] at h; subst h; exact .no
    | str s => cases s with
      | nil => exact .text
      | cons c s => simp [Method.toBoolean] at h
    | arr l => cases l with
      | nil => exact .array
      | cons c s => simp [Method.toBoolean] at h
    | num n => exact .zero ((fne_zero_value n).1 h)
    | cur n => exact .nothing ((fne_zero_value n).1 h)
    | json s => simp [Method.toBoolean] at h
    | dt t => simp [Method.toBoolean] at h
  · intro h
    cases h with
    | zero h => exact (fne_zero_value _).2 h
    | nothing h => exact (fne_zero_value _).2 h
    | _ => rfl

/-- Converting the elements of any array, whatever is in it, gives an array of the same length: texts for `to_s`, numbers for `to_i` and `to_f`,
arrays for `to_a`, booleans for `to_bool`, each the conversion of the element at its place. -/
theorem C133_map_conversions (X : Ext) (env : Env) (items : List Value) (h : env c!"mixed" = some (.arr items)) :
    (∃ out, evaluateWith X c!":mixed.map(:x.to_s())" env = .ok (.arr out) ∧
      List.Forall₂ (fun v w => ∃ s, w = .str s ∧ meth0 X v c!"to_s" = .ok w) items out) ∧
    (∃ out, evaluateWith X c!":mixed.map(:x.to_i())" env = .ok (.arr out) ∧
      List.Forall₂ (fun v w => ∃ x, w = .num x ∧ meth0 X v c!"to_i" = .ok w) items out) ∧
    (∃ out, evaluateWith X c!":mixed.map(:x.to_f())" env = .ok (.arr out) ∧
      List.Forall₂ (fun v w => ∃ x, w = .num x ∧ meth0 X v c!"to_f" = .ok w) items out) ∧
    (∃ out, evaluateWith X c!":mixed.map(:x.to_a())" env = .ok (.arr out) ∧
      List.Forall₂ (fun v w => ∃ l, w = .arr l ∧ meth0 X v c!"to_a" = .ok w) items out) ∧
    (∃ out, evaluateWith X c!":mixed.map(:x.to_bool())" env = .ok (.arr out) ∧
      List.Forall₂ (fun v w => ∃ b, w = .bool b ∧ meth0 X v c!"to_bool" = .ok w ∧ (b = false ↔ Falsy v)) items out) := by
  have hx : ∀ v, env.insert c!"x" v c!"x" = some v := by intro v; simp [Env.insert]
  refine ⟨⟨_, ?_, forall₂_map (fun v => .str (Method.toText X v)) (fun v => ⟨_, rfl, (conv_to_s X v).1⟩) items⟩,
    ⟨_, ?_, forall₂_map (fun v => .num (Method.toInt v)) (fun v => ⟨_, rfl, (conv_to_i X v).1⟩) items⟩,
    ⟨_, ?_, forall₂_map (fun v => .num (Method.toFloat v)) (fun v => ⟨_, rfl, (conv_to_f X v).1⟩) items⟩,
    ⟨_, ?_, forall₂_map (fun v => .arr (Method.toArray v)) (fun v => ⟨_, rfl, (conv_to_a X v).1⟩) items⟩,
    ⟨_, ?_, forall₂_map (fun v => .bool (Method.toBoolean v)) (fun v => ⟨_, rfl, (conv_to_bool X v).1, falsy_iff v⟩) items⟩⟩
  · rw [evaluateWith_of X env (e := .method (.var c!"mixed") c!"map" [.method (.var c!"x") c!"to_s" [] false] false) (by kernel_rfl)]
    exact method_map X env _ items _ _ h fun v _ => by simp only [Legacy.eval, hx, bind, Except.bind, exec_to_s]
  · rw [evaluateWith_of X env (e := .method (.var c!"mixed") c!"map" [.method (.var c!"x") c!"to_i" [] false] false) (by kernel_rfl)]
    exact method_map X env _ items _ _ h fun v _ => by simp only [Legacy.eval, hx, bind, Except.bind, exec_to_i]
  · rw [evaluateWith_of X env (e := .method (.var c!"mixed") c!"map" [.method (.var c!"x") c!"to_f" [] false] false) (by kernel_rfl)]
    exact method_map X env _ items _ _ h fun v _ => by simp only [Legacy.eval, hx, bind, Except.bind, exec_to_f]
  · rw [evaluateWith_of X env (e := .method (.var c!"mixed") c!"map" [.method (.var c!"x") c!"to_a" [] false] false) (by kernel_rfl)]
    exact method_map X env _ items _ _ h fun v _ => by simp only [Legacy.eval, hx, bind, Except.bind, exec_to_a]
  · rw [evaluateWith_of X env (e := .method (.var c!"mixed") c!"map" [.method (.var c!"x") c!"to_bool" [] false] false) (by kernel_rfl)]
    exact method_map X env _ items _ _ h fun v _ => by simp only [Legacy.eval, hx, bind, Except.bind, exec_to_bool]

theorem dateIs_prop (X : Ext) (d : Value) (t : Option Str) (safe : Bool) (bad : Value → Fail) (h : DateIs X d t) :
    Ops.property X bad safe d c!"date" = .ok (orText t) := by
  cases t with
  | none => obtain ⟨s, j, rfl, hp, hg⟩ := h; simp only [Ops.property, parseJson, hp, bind, Except.bind, hg]; rfl
  | some t => obtain ⟨s, j, rfl, hp, hg⟩ := h; simp only [Ops.property, parseJson, hp, bind, Except.bind, hg]; rfl

/-- The guide's filter for empty dates, on every array of documents whose `date` is null or a text: exactly the documents where it is null or
the empty text, in their order. -/
theorem C133_filter_empty (X : Ext) (env : Env) (docs : List Value) (date : Value → Option Str) (h : env c!"data" = some (.arr docs))
    (hd : ∀ d ∈ docs, DateIs X d (date d)) :
    evaluateWith X c!":data.filter(:x.date.to_s().length() == 0)" env =
      .ok (.arr (docs.filter fun d => decide (date d = none ∨ date d = some []))) := by
  have hx : ∀ v, env.insert c!"x" v c!"x" = some v := by intro v; simp [Env.insert]
  rw [evaluateWith_of X env (e := .method (.var c!"data") c!"filter"
    [.binary (.method (.method (.prop (.var c!"x") c!"date") c!"to_s" [] false) c!"length" [] false) .eq (.number (.zero false))] false) (by kernel_rfl)]
  refine method_filter X env _ docs _ _ h fun d hm => ?_
  simp only [Legacy.eval, hx, bind, Except.bind, dateIs_prop X d _ _ _ (hd d hm), exec_to_s, exec_str_length, Ops.binary, Ops.compare, Ops.cmpNum,
    feq_ofNat_zero, byteLen_zero]
  congr 2
  cases date d with
  | none => rfl
  | some t => simp [orText, Method.toText]

/-- And its filter for the others: the documents where it is a text that is not empty. -/
theorem C133_filter_present (X : Ext) (env : Env) (docs : List Value) (date : Value → Option Str) (h : env c!"data" = some (.arr docs))
    (hd : ∀ d ∈ docs, DateIs X d (date d)) :
    evaluateWith X c!":data.filter(:x.date.to_s().length() > 0)" env =
      .ok (.arr (docs.filter fun d => decide (∃ t, date d = some t ∧ t ≠ []))) := by
  have hx : ∀ v, env.insert c!"x" v c!"x" = some v := by intro v; simp [Env.insert]
  rw [evaluateWith_of X env (e := .method (.var c!"data") c!"filter"
    [.binary (.method (.method (.prop (.var c!"x") c!"date") c!"to_s" [] false) c!"length" [] false) .gt (.number (.zero false))] false) (by kernel_rfl)]
  refine method_filter X env _ docs _ _ h fun d hm => ?_
  simp only [Legacy.eval, hx, bind, Except.bind, dateIs_prop X d _ _ _ (hd d hm), exec_to_s, exec_str_length, Ops.binary, Ops.compare, Ops.cmpNum,
    fgt_ofNat_zero, ne_eq, byteLen_zero]
  congr 2
  cases date d with
  | none => simp [orText, Method.toText]
  | some t => simp [orText, Method.toText]

theorem mapM_error {α β : Type} (f : α → Res β) (l : List α) (m : String) (as : List Str)
    (h : ∀ a ∈ l, (∃ b, f a = .ok b) ∨ f a = fail m as) (he : ∃ a ∈ l, f a = fail m as) : l.mapM f = fail m as := by
  induction l with
  | nil => simp at he
  | cons a l ih =>
    rw [List.mapM_cons]
    rcases h a (by simp) with ⟨b, hb⟩ | hb
    · obtain ⟨c, hc, hf⟩ := he
      rcases List.mem_cons.1 hc with rfl | hc
      · rw [hf] at hb; simp [fail] at hb
      · rw [hb, ih (fun x hx => h x (by simp [hx])) ⟨c, hc, hf⟩]; rfl
    · rw [hb]; rfl

/-- The version the guide recommends for "ultimate null safety" fails on what it is for: `:x&.date&.to_s()` is null for a null date, and null
has no `length`. The guide promises the documents with a date; with one null date among the documents there is only an error. -/
theorem C133_safe_chain_fails (X : Ext) (env : Env) (docs : List Value) (date : Value → Option Str) (h : env c!"data" = some (.arr docs))
    (hd : ∀ d ∈ docs, DateIs X d (date d)) (hn : ∃ d ∈ docs, date d = none) :
    evaluateWith X c!":data.filter(:x&.date&.to_s().length() > 0)" env = fail "No methods available for {:?} type" [c!"Null"] := by
  have hx : ∀ v, env.insert c!"x" v c!"x" = some v := by intro v; simp [Env.insert]
  rw [evaluateWith_of X env (e := .method (.var c!"data") c!"filter"
    [.binary (.method (.safeCall (.safeProp (.var c!"x") c!"date") c!"to_s" []) c!"length" [] false) .gt (.number (.zero false))] false) (by kernel_rfl)]
  simp only [Eval.eval, h, bind, Except.bind, exec_arr_filter, Method.filter, Legacy.argsOf_eq, List.map_cons, List.map_nil, Legacy.argOf_run,
    List.head?_nil, Method.paramName, Loop.filter_eq]
  rw [mapM_error _ docs "No methods available for {:?} type" [c!"Null"]]
  · rfl
  · intro d hm
    simp only [Legacy.eval, hx, bind, Except.bind, dateIs_prop X d _ _ _ (hd d hm)]
    cases date d with
    | none => right; simp only [orText, exec_null_length, pure, Except.pure]; rfl
    | some t => left; simp only [orText, exec_to_s, exec_str_length, Ops.binary, Ops.compare]; exact ⟨_, rfl⟩
  · obtain ⟨d, hm, he⟩ := hn
    refine ⟨d, hm, ?_⟩
    simp only [Legacy.eval, hx, bind, Except.bind, dateIs_prop X d _ _ _ (hd d hm), he, orText, exec_null_length, pure, Except.pure]; rfl

/-- Where no date is null it gives the documents whose date is not empty, as the plain version does (`C133_filter_present`). -/
theorem C133_safe_chain (X : Ext) (env : Env) (docs : List Value) (date : Value → Str) (h : env c!"data" = some (.arr docs))
    (hd : ∀ d ∈ docs, DateIs X d (some (date d))) :
    evaluateWith X c!":data.filter(:x&.date&.to_s().length() > 0)" env = .ok (.arr (docs.filter fun d => decide (date d ≠ []))) := by
  have hx : ∀ v, env.insert c!"x" v c!"x" = some v := by intro v; simp [Env.insert]
  rw [evaluateWith_of X env (e := .method (.var c!"data") c!"filter"
    [.binary (.method (.safeCall (.safeProp (.var c!"x") c!"date") c!"to_s" []) c!"length" [] false) .gt (.number (.zero false))] false) (by kernel_rfl)]
  refine method_filter X env _ docs _ _ h fun d hm => ?_
  simp only [Legacy.eval, hx, bind, Except.bind, dateIs_prop X d _ _ _ (hd d hm), orText, exec_to_s, exec_str_length, Ops.binary, Ops.compare, Ops.cmpNum,
    fgt_ofNat_zero, ne_eq, byteLen_zero, Method.toText]

/-- `&.` keeps nulls: `:arr.map(:x&.length())` gives null for null and the number of bytes for a text; `:arr.map(:x.to_s().length())` gives 0 for null. -/
theorem C133_map_length (X : Ext) (env : Env) (items : List (Option Str)) (h : env c!"arr" = some (.arr (items.map orText))) :
    evaluateWith X c!":arr.map(:x&.length())" env =
      .ok (.arr (items.map fun t => match t with | none => .null | some s => .num (F64.ofNat (bytes s)))) ∧
    evaluateWith X c!":arr.map(:x.to_s().length())" env =
      .ok (.arr (items.map fun t => match t with | none => .num (.zero false) | some s => .num (F64.ofNat (bytes s)))) := by
  have hx : ∀ v, env.insert c!"x" v c!"x" = some v := by intro v; simp [Env.insert]
  constructor
  · rw [evaluateWith_of X env (e := .method (.var c!"arr") c!"map" [.safeCall (.var c!"x") c!"length" []] false) (by kernel_rfl)]
    rw [method_map X env _ _ _ (fun v => match v with | .str s => .num (F64.ofNat (bytes s)) | _ => .null) h]
    · rw [List.map_map]; congr 2; apply List.map_congr_left; intro t _; cases t <;> rfl
    · intro v hv
      obtain ⟨t, _, rfl⟩ := List.mem_map.1 hv
      simp only [Legacy.eval, hx, bind, Except.bind]
      cases t with
      | none => rfl
      | some s => simp only [orText, exec_str_length, byteLen_bytes]
  · rw [evaluateWith_of X env (e := .method (.var c!"arr") c!"map" [.method (.method (.var c!"x") c!"to_s" [] false) c!"length" [] false] false) (by kernel_rfl)]
    rw [method_map X env _ _ _ (fun v => match v with | .str s => .num (F64.ofNat (bytes s)) | _ => .num (.zero false)) h]
    · rw [List.map_map]; congr 2; apply List.map_congr_left; intro t _; cases t <;> rfl
    · intro v hv
      obtain ⟨t, _, rfl⟩ := List.mem_map.1 hv
      simp only [Legacy.eval, hx, bind, Except.bind, exec_to_s, exec_str_length]
      cases t with
      | none => rfl
      | some s => simp only [orText, Method.toText, byteLen_bytes]

theorem trimmed_blank {b t : Str} (h : Trimmed (c!" " ++ b) t) : Trimmed b t := by
  obtain ⟨⟨x, y, he, hx, hy⟩, h1, h2⟩ := h
  refine ⟨?_, h1, h2⟩
  cases x with
  | cons c x =>
    simp only [List.cons_append, List.nil_append, List.cons.injEq] at he
    exact ⟨x, y, he.2, fun d hd => hx d (by simp [hd]), hy⟩
  | nil =>
    cases t with
    | nil =>
      simp only [List.nil_append, List.cons_append] at he
      exact ⟨[], b, by simp, by simp, fun d hd => hy d (by rw [← he]; simp [hd])⟩
    | cons c t =>
      simp only [List.cons_append, List.nil_append, List.cons.injEq] at he
      exact absurd (by rw [← he.1]; simp [White]) (h1 c rfl)

/-- `CONCAT(:first.to_s(), " ", :last.to_s()).trim()` never fails: the two texts with a blank between, trimmed. So with a null first part it is
the other text, trimmed. -/
theorem C133_concat (X : Ext) (env : Env) (v w : Value) (h1 : env c!"first" = some v) (h2 : env c!"last" = some w) :
    ∃ a b t, meth0 X v c!"to_s" = .ok (.str a) ∧ meth0 X w c!"to_s" = .ok (.str b) ∧ Trimmed (a ++ c!" " ++ b) t ∧
      evaluateWith X c!"CONCAT(:first.to_s(), \" \", :last.to_s()).trim()" env = .ok (.str t) ∧ (v = .null → Trimmed b t) := by
  refine ⟨_, _, _, (conv_to_s X v).1, (conv_to_s X w).1, trim_spec _, ?_, ?_⟩
  · rw [evaluateWith_of X env (e := .method (.call c!"CONCAT" [.method (.var c!"first") c!"to_s" [] false, .strLit c!" ",
      .method (.var c!"last") c!"to_s" [] false]) c!"trim" [] false) (by kernel_rfl)]
    have hc : Eval.eval X (.call c!"CONCAT" [.method (.var c!"first") c!"to_s" [] false, .strLit c!" ", .method (.var c!"last") c!"to_s" [] false]) none env =
        .ok (.str (StrFn.concatTexts X [.str (Method.toText X v), .str c!" ", .str (Method.toText X w)])) := by
      rw [call_exec X c!"CONCAT" none env _ [.str (Method.toText X v), .str c!" ", .str (Method.toText X w)] (by decide) (by intro reg h; simp at h)]
      · rfl
      · refine .plain (by simp) ?_ (.plain (by simp) rfl (.plain (by simp) ?_ .nil))
        · simp only [Eval.eval, h1, bind, Except.bind, exec_to_s]
        · simp only [Eval.eval, h2, bind, Except.bind, exec_to_s]
    rw [Eval.eval]
    simp only [hc, bind, Except.bind, exec_str_trim]
    simp [StrFn.concatTexts, StrFn.concatText]
  · rintro rfl
    exact trimmed_blank (trim_spec (c!" " ++ Method.toText X w))

/-- A number made an array and summed is that number. -/
theorem C133_sum_of_one (X : Ext) (env : Env) (x : F64) (q : ℚ) (h : env c!"value" = some (.num x)) (hq : HasValue x q) :
    ∃ y, HasValue y q ∧ evaluateWith X c!":value.to_a().sum()" env = .ok (.num y) := by
  refine ⟨F64.add (.zero false) x, ?_, ?_⟩
  · cases x with
    | nan => exact hq
    | inf s => exact hq
    | zero s => cases s <;> exact hq
    | fin p => exact hq
  · rw [evaluateWith_of X env (e := .method (.method (.var c!"value") c!"to_a" [] false) c!"sum" [] false) (by kernel_rfl)]
    simp only [Eval.eval, h, bind, Except.bind, exec_to_a]; rfl

/-- Null has no properties and no methods of its own, but `&.` gives null: for a property, a method, and `dig` with any path. -/
theorem C133_null (X : Ext) (env : Env) (h : env c!"obj" = some .null) :
    evaluateWith X c!":obj.anything" env = fail "Property access requires JSON object" [] ∧
    evaluateWith X c!":obj.length()" env = fail "No methods available for {:?} type" [c!"Null"] ∧
    evaluateWith X c!":obj&.anything" env = .ok .null ∧ evaluateWith X c!":obj&.length()" env = .ok .null ∧
    evaluateWith X c!":obj&.name&.length()" env = .ok .null ∧ evaluateWith X c!":obj&.dig(['a','b'])" env = .ok .null := by
  refine ⟨?_, ?_, ?_, ?_, ?_, ?_⟩
  · rw [evaluateWith_of X env (e := .prop (.var c!"obj") c!"anything") (by kernel_rfl)]
    simp only [Eval.eval, h, bind, Except.bind]; rfl
  · rw [evaluateWith_of X env (e := .method (.var c!"obj") c!"length" [] false) (by kernel_rfl)]
    simp only [Eval.eval, h, bind, Except.bind, exec_null_length]; rfl
  · rw [evaluateWith_of X env (e := .safeProp (.var c!"obj") c!"anything") (by kernel_rfl)]
    simp only [Eval.eval, h, bind, Except.bind]; rfl
  · rw [evaluateWith_of X env (e := .safeCall (.var c!"obj") c!"length" []) (by kernel_rfl)]
    simp only [Eval.eval, h, bind, Except.bind]; rfl
  · rw [evaluateWith_of X env (e := .safeCall (.safeProp (.var c!"obj") c!"name") c!"length" []) (by kernel_rfl)]
    simp only [Eval.eval, h, bind, Except.bind]; rfl
  · rw [evaluateWith_of X env (e := .safeCall (.var c!"obj") c!"dig" [.array [.strLit c!"a", .strLit c!"b"]]) (by kernel_rfl)]
    simp only [Eval.eval, h, bind, Except.bind]; rfl

/-- The guide's own example meets the hypotheses: three documents, with a null date, an empty one and one that is neither. The filter keeps the
first two; the recommended `&.` version is an error. -/
example (X : Ext) (a b c : Str) (ha : X.jsonParse a = .ok (.obj [(c!"date", .null)])) (hb : X.jsonParse b = .ok (.obj [(c!"date", .str [])]))
    (hc : X.jsonParse c = .ok (.obj [(c!"date", .str c!"2023-01-01")])) (env : Env) (h : env c!"data" = some (.arr [.json a, .json b, .json c])) :
    evaluateWith X c!":data.filter(:x.date.to_s().length() == 0)" env = .ok (.arr [.json a, .json b]) ∧
    evaluateWith X c!":data.filter(:x.date.to_s().length() > 0)" env = .ok (.arr [.json c]) ∧
    evaluateWith X c!":data.filter(:x&.date&.to_s().length() > 0)" env = fail "No methods available for {:?} type" [c!"Null"] := by
  let date : Value → Option Str := fun d => match d with
    | .json s => match X.jsonParse s with
      | .ok j => match j.get c!"date" with
        | some (.str t) => some t
        | _ => none
      | _ => none
    | _ => none
  have ea : date (.json a) = none := by simp only [date, ha]; rfl
  have eb : date (.json b) = some [] := by simp only [date, hb]; rfl
  have ec : date (.json c) = some c!"2023-01-01" := by simp only [date, hc]; rfl
  have hd : ∀ d ∈ [Value.json a, .json b, .json c], DateIs X d (date d) := by
    intro d hm
    simp only [List.mem_cons, List.not_mem_nil, or_false] at hm
    rcases hm with rfl | rfl | rfl
    · rw [ea]; exact ⟨_, _, rfl, ha, rfl⟩
    · rw [eb]; exact ⟨_, _, rfl, hb, rfl⟩
    · rw [ec]; exact ⟨_, _, rfl, hc, rfl⟩
  refine ⟨?_, ?_, C133_safe_chain_fails X env _ date h hd ⟨.json a, by simp, ea⟩⟩
  · rw [C133_filter_empty X env _ date h hd]; simp [ea, eb, ec]
  · rw [C133_filter_present X env _ date h hd]; simp [ea, eb, ec]

example (X : Ext) : evaluateWith X c!":arr.map(:x&.length())" (Env.empty.insert c!"arr" (.arr [.null, .str c!"hello", .null])) =
    .ok (.arr [.null, .num (F64.ofNat 5), .null]) :=
  (C133_map_length X _ [none, some c!"hello", none] rfl).1

example (X : Ext) : ∃ t, evaluateWith X c!"CONCAT(:first.to_s(), \" \", :last.to_s()).trim()"
    ((Env.empty.insert c!"first" .null).insert c!"last" (.str c!"Smith")) = .ok (.str t) ∧ Trimmed c!"Smith" t := by
  obtain ⟨a, b, t, -, hb, -, he, ht⟩ := C133_concat X ((Env.empty.insert c!"first" .null).insert c!"last" (.str c!"Smith")) .null (.str c!"Smith") rfl rfl
  have : b = c!"Smith" := by rw [(conv_to_s X _).1] at hb; simpa [Method.toText] using hb.symm
  exact ⟨t, he, this ▸ ht rfl⟩

example (X : Ext) : ∃ x, meth0 X (.str c!"abc") c!"to_i" = .ok (.num x) ∧
    evaluateWith X c!":number.to_i() + 10" (Env.empty.insert c!"number" (.str c!"abc")) = .ok (.num (F64.add x (F64.ofNat 10))) :=
  C133_plus X _ _ rfl

example (X : Ext) : ∃ out, evaluateWith X c!":mixed.map(:x.to_i())" (Env.empty.insert c!"mixed" (.arr [.str c!"12", .null, .bool true, .str c!"abc"])) =
    .ok (.arr out) ∧ List.Forall₂ (fun v w => ∃ x, w = .num x ∧ meth0 X v c!"to_i" = .ok w) [.str c!"12", .null, .bool true, .str c!"abc"] out :=
  (C133_map_conversions X _ _ rfl).2.1
