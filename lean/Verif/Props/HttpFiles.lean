import Verif.Props.HttpAuth
/-! C56, C57: function files. -/

open Http Spec

/-! ### Paths -/

theorem splitGo_char (c : Char) : ∀ (a acc name : Str), (∀ x ∈ name, x ≠ c) →
    Str.splitGo [c] 0 acc (a ++ c :: name) = Str.splitGo [c] 0 acc a ++ [name]
  | [], acc, name, h => by
    have hn : ∀ (n acc : Str), (∀ x ∈ n, x ≠ c) → Str.splitGo [c] 0 acc n = [acc.reverse ++ n] := by
      intro n
      induction n with
      | nil => intro acc _; simp [Str.splitGo]
      | cons x n ih =>
        intro acc h
        have hx : (x == c) = false := by simpa using h x (by simp)
        simp only [Str.splitGo, Str.startsWith, hx, Bool.false_and, Bool.false_eq_true, if_false]
        rw [ih _ fun y hy => h y (by simp [hy])]
        simp
    simp only [List.nil_append, Str.splitGo, Str.startsWith, beq_self_eq_true, Bool.and_self, if_true, List.length_singleton, Nat.sub_self, List.singleton_append]
    rw [hn name [] h]
    rfl
  | x :: a, acc, name, h => by
    simp only [List.cons_append, Str.splitGo]
    by_cases hx : (x == c) = true
    · simp only [Str.startsWith, hx, Bool.and_self, if_true, List.length_singleton, Nat.sub_self]
      rw [splitGo_char c a [] name h]
      rfl
    · simp only [Str.startsWith, hx, Bool.false_and, Bool.false_eq_true, if_false]
      exact splitGo_char c a _ name h

theorem components_slash (a name : Str) (h : ∀ x ∈ name, x ≠ '/') (hn : name ≠ []) (hd : name ≠ c!".") :
    components (a ++ '/' :: name) = components a ++ [name] := by
  unfold components Str.split
  simp only [List.isEmpty_cons, Bool.false_eq_true, if_false]
  rw [splitGo_char '/' a [] name h, List.filter_append]
  congr 1
  rw [List.filter_cons_of_pos (by simpa using ⟨hn, by simpa using hd⟩)]
  rfl

theorem components_trailing (a : Str) : components (a ++ ['/']) = components a := by
  unfold components Str.split
  simp only [List.isEmpty_cons, Bool.false_eq_true, if_false]
  rw [splitGo_char '/' a [] [] (by simp), List.filter_append]
  simp

theorem components_plain (name : Str) (h : ∀ x ∈ name, x ≠ '/') (hn : name ≠ []) (hd : name ≠ c!".") : components name = [name] := by
  have : components ('/' :: name) = components name := by
    unfold components Str.split
    simp only [List.isEmpty_cons, Bool.false_eq_true, if_false, Str.splitGo, Str.startsWith, beq_self_eq_true, Bool.and_self, if_true, List.length_singleton, Nat.sub_self,
      List.reverse_nil]
    rw [List.filter_cons_of_neg (by simp)]
  rw [← this]
  have := components_slash [] name h hn hd
  simpa [components, Str.split, Str.splitGo] using this

theorem startsWith_slash (s : Str) : Str.startsWith s c!"/" = true ↔ ∃ r, s = '/' :: r := by
  rw [startsWith_iff]
  constructor
  · rintro ⟨r, rfl⟩; exact ⟨r, rfl⟩
  · rintro ⟨r, rfl⟩; exact ⟨r, rfl⟩

theorem startsWith_slash_append (a b : Str) (ha : a ≠ []) : Str.startsWith (a ++ b) c!"/" = Str.startsWith a c!"/" := by
  cases a with
  | nil => exact absurd rfl ha
  | cons x a => simp [Str.startsWith]

/-- The last component of a path is looked for in the directory the rest names. -/
theorem walk_last (fs : Fs) (f : Str) (hf : f ≠ c!"..") : ∀ (cs : List Str) (cur p : Path), walk fs cur (cs ++ [f]) = some p → ∃ d, walk fs cur cs = some d ∧ p = d ++ [f]
  | [], cur, p, h => by
    simp only [List.nil_append, walk, if_neg hf, List.isEmpty_nil, if_true, Option.some.injEq] at h
    exact ⟨cur, rfl, h.symm⟩
  | c :: cs, cur, p, h => by
    simp only [List.cons_append, walk] at h ⊢
    by_cases hc : c = c!".."
    · rw [if_pos hc] at h ⊢
      exact walk_last fs f hf cs _ p h
    · rw [if_neg hc] at h ⊢
      rw [if_neg (by simp)] at h
      by_cases hd : fs.isDir (cur ++ [c]) = true
      · rw [if_pos hd] at h
        obtain ⟨d, h1, h2⟩ := walk_last fs f hf cs _ p h
        refine ⟨d, ?_, h2⟩
        rw [if_pos hd]
        split
        · rename_i he
          rw [List.isEmpty_iff.1 he] at h1
          simpa [walk] using h1
        · exact h1
      · rw [if_neg hd] at h
        exact absurd h (by simp)

/-- A name without slashes names a file in the base directory. -/
theorem resolve_join (fs : Fs) (cwd : Path) (base name : Str) (p : Path) (h : ∀ x ∈ name, x ≠ '/') (hn : name ≠ []) (hd : name ≠ c!".") (hdd : name ≠ c!"..")
    (hp : fs.resolve cwd (joinPath base name) = some p) : ∃ d, fs.resolve cwd base = some d ∧ p = d ++ [name] := by
  have hs : Str.startsWith name c!"/" = false := by
    rw [Bool.eq_false_iff]
    intro hh
    obtain ⟨r, rfl⟩ := (startsWith_slash name).1 hh
    exact h '/' (by simp) rfl
  unfold Fs.resolve at hp ⊢
  unfold joinPath at hp
  simp only [hs, Bool.false_or] at hp
  by_cases hb : base = []
  · subst hb
    simp only [List.isEmpty_nil, if_true, hs, Bool.false_eq_true, if_false] at hp
    rw [components_plain name h hn hd] at hp
    obtain ⟨d, h1, h2⟩ := walk_last fs name hdd [] _ p hp
    exact ⟨d, by simpa [components, Str.split, Str.splitGo, Str.startsWith] using h1, h2⟩
  · have hbe : base.isEmpty = false := by simpa using hb
    simp only [hbe, Bool.false_eq_true, if_false] at hp
    by_cases he : Str.endsWith base c!"/" = true
    · rw [if_pos he] at hp
      obtain ⟨b, rfl⟩ : ∃ b, base = b ++ ['/'] := by
        unfold Str.endsWith at he
        rw [startsWith_iff] at he
        obtain ⟨r, hr⟩ := he
        exact ⟨r.reverse, by rw [← List.reverse_reverse base, ← hr]; simp⟩
      rw [List.append_assoc, List.singleton_append] at hp
      rw [components_slash b name h hn hd] at hp
      obtain ⟨d, h1, h2⟩ := walk_last fs name hdd _ _ p hp
      refine ⟨d, ?_, h2⟩
      rw [components_trailing]
      have hst : Str.startsWith (b ++ '/' :: name) c!"/" = Str.startsWith (b ++ ['/']) c!"/" := by
        have := startsWith_slash_append (b ++ ['/']) name (by simp)
        rw [← this, List.append_assoc, List.singleton_append]
      rw [hst] at h1
      exact h1
    · rw [if_neg he] at hp
      have hj : base ++ c!"/" ++ name = base ++ '/' :: name := by simp
      rw [hj, components_slash base name h hn hd, startsWith_slash_append base _ hb] at hp
      exact walk_last fs name hdd _ _ p hp

/-! ### What handling a request can do to the files -/

theorem mkdirs_files : ∀ (cs : List Str) (fs : Fs) (cur : Path), (mkdirs fs cur cs).1.files = fs.files
  | [], _, _ => rfl
  | c :: cs, fs, cur => by
    simp only [mkdirs]
    split
    · exact mkdirs_files cs _ _
    · split
      · exact mkdirs_files cs _ _
      · split
        · rfl
        · rw [mkdirs_files cs]

theorem createDirs_files (fs : Fs) (cwd : Path) (s : Str) : (fs.createDirs cwd s).1.files = fs.files := mkdirs_files _ _ _

theorem read_of_files {fs fs' : Fs} (h : fs'.files = fs.files) (p : Path) : fs'.read p = fs.read p := by unfold Fs.read; rw [h]

theorem find_filter_ne {p q : Path} (h : q ≠ p) : ∀ l : List (Path × Str), (l.filter fun f => f.1 ≠ p).find? (fun f => f.1 = q) = l.find? (fun f => f.1 = q)
  | [] => rfl
  | f :: l => by
    by_cases hf : f.1 = p
    · rw [List.filter_cons_of_neg (by simp [hf]), List.find?_cons_of_neg (by simp [hf, Ne.symm h])]
      exact find_filter_ne h l
    · rw [List.filter_cons_of_pos (by simp [hf])]
      simp only [List.find?_cons]
      split
      · rfl
      · exact find_filter_ne h l

theorem find_filter_eq (p : Path) (l : List (Path × Str)) : (l.filter fun f => f.1 ≠ p).find? (fun f => f.1 = p) = none := by
  rw [List.find?_eq_none]
  intro f hf
  have := (List.mem_filter.1 hf).2
  simpa using this

theorem read_write (fs : Fs) (p q : Path) (s : Str) : (fs.write p s).read q = if q = p then some s else fs.read q := by
  unfold Fs.read Fs.write
  by_cases h : q = p
  · subst h; simp
  · rw [if_neg h, List.find?_cons_of_neg (by simpa using Ne.symm h), find_filter_ne h]

theorem read_remove (fs : Fs) (p q : Path) : (fs.remove p).read q = if q = p then none else fs.read q := by
  unfold Fs.read Fs.remove
  by_cases h : q = p
  · subst h; rw [if_pos rfl, find_filter_eq]; rfl
  · rw [if_neg h, find_filter_ne h]

/-- The hooks directory, made if it was not there. -/
def Spec.withHooks (cfg : Config) (fs : Fs) : Fs := if fs.exists cfg.cwd cfg.hooksDir then fs else (fs.createDirs cfg.cwd cfg.hooksDir).1

theorem withHooks_files (cfg : Config) (fs : Fs) : (withHooks cfg fs).files = fs.files := by
  unfold withHooks
  split
  · rfl
  · exact createDirs_files _ _ _

theorem saveJs_cases (H : HttpExt) (cfg : Config) (fs : Fs) (name code : Str) :
    saveJs H cfg fs name code = (withHooks cfg fs, false) ∨
    ∃ p, (withHooks cfg fs).resolve cfg.cwd (joinPath cfg.hooksDir name) = some p ∧ saveJs H cfg fs name code = ((withHooks cfg fs).write p code, true) := by
  have e : (ensureHooks cfg fs).1 = withHooks cfg fs := by unfold ensureHooks withHooks; split <;> rfl
  unfold saveJs
  rw [← e]
  obtain ⟨fs', b⟩ := ensureHooks cfg fs
  cases b
  · exact .inl rfl
  simp only [writeJs]
  cases hr : fs'.resolve cfg.cwd (joinPath cfg.hooksDir name) with
  | none => exact .inl rfl
  | some p =>
    simp only
    split
    · exact .inl rfl
    · exact .inr ⟨p, rfl, rfl⟩

theorem deleteJs_cases (H : HttpExt) (cfg : Config) (fs : Fs) (name : Str) :
    deleteJs H cfg fs name = (fs, false) ∨
    ∃ p, fs.resolve cfg.cwd (joinPath cfg.hooksDir name) = some p ∧ deleteJs H cfg fs name = (fs.remove p, true) := by
  simp only [deleteJs]
  cases hr : fs.resolve cfg.cwd (joinPath cfg.hooksDir name) with
  | none => left; rfl
  | some p =>
    simp only
    split
    · right; exact ⟨p, rfl, rfl⟩
    · left; rfl

/-- All that a request can do to the files of a site. -/
inductive FsStep (X : Ext) (H : HttpExt) (cfg : Config) (request : Str) (fs : Fs) : Fs → Prop
  | same : FsStep X H cfg request fs fs
  | hooks : FsStep X H cfg request fs (fs.createDirs cfg.cwd cfg.hooksDir).1
  | save (q : JsRequest) (code : Str) (p : Path) (f : JsFunction) (b : Bool) : jsRequest X H request = .ok q → Str.endsWith q.filename c!".js" = true → q.code = some code →
      validateJs X H code = .ok (f, b) → (withHooks cfg fs).resolve cfg.cwd (joinPath cfg.hooksDir q.filename) = some p →
      FsStep X H cfg request fs ((withHooks cfg fs).write p code)
  | delete (name : Str) (p : Path) : jsonBody H.decodeDelete request = .ok name → Str.endsWith name c!".js" = true →
      fs.resolve cfg.cwd (joinPath cfg.hooksDir name) = some p → FsStep X H cfg request fs (fs.remove p)

theorem FsStep.withHooks (X : Ext) (H : HttpExt) (cfg : Config) (request : Str) (fs : Fs) : FsStep X H cfg request fs (Spec.withHooks cfg fs) := by
  unfold Spec.withHooks
  split
  · exact .same
  · exact .hooks

theorem storeJs_step (X : Ext) (H : HttpExt) (cfg : Config) (request : Str) (s : Site) (q : JsRequest) (hq : jsRequest X H request = .ok q)
    (hn : Str.endsWith q.filename c!".js" = true) : FsStep X H cfg request s.fs (storeJs X H cfg s q.filename q.code).2.fs := by
  unfold storeJs
  cases hc : q.code with
  | none => exact .same
  | some code =>
    simp only [guarded]
    cases hv : validateJs X H code with
    | error f => cases f <;> exact .same
    | ok fb =>
      simp only
      rcases saveJs_cases H cfg s.fs q.filename code with h | ⟨p, hp, h⟩
      · rw [h]; exact FsStep.withHooks ..
      · rw [h]; exact .save q code p fb.1 fb.2 hq hn hc hv hp

theorem ite_step {X : Ext} {H : HttpExt} {cfg : Config} {request : Str} {fs : Fs} {p : Prop} [Decidable p] {a b : Outcome} (ha : FsStep X H cfg request fs a.2.fs)
    (hb : FsStep X H cfg request fs b.2.fs) : FsStep X H cfg request fs (if p then a else b).2.fs := by
  by_cases h : p
  · rw [if_pos h]; exact ha
  · rw [if_neg h]; exact hb

theorem withToken_step {X : Ext} {H : HttpExt} {cfg : Config} {request : Str} {s : Site} {t : Option Str} {k : Outcome} (hk : FsStep X H cfg request s.fs k.2.fs) :
    FsStep X H cfg request s.fs (withToken X request t s k).2.fs := by
  rcases withToken_either X request t s k with h | h
  · rw [h]; exact .same
  · rw [h]; exact hk

theorem only_step {X : Ext} {H : HttpExt} {cfg : Config} {request : Str} {s : Site} {k : Outcome} (h : OnlyEvaluated s k.2) : FsStep X H cfg request s.fs k.2.fs := by
  rw [h.1]; exact .same

/-- Handling a request does one of these to the files. -/
theorem handle_step (X : Ext) (H : HttpExt) (cfg : Config) (request : Str) (s : Site) : FsStep X H cfg request s.fs (handle X H cfg request s).2.fs := by
  have hr : ∀ n, FsStep X H cfg request s.fs (reply s n).2.fs := fun _ => .same
  unfold handle
  split
  · exact .same
  · split
    · unfold route
      refine ite_step (hr _) <| ite_step (hr _) <| ite_step (hr _) <| ite_step (hr _) <|
        ite_step (only_step (evalPost_only X H cfg request s)) <| ite_step (only_step (evalGet_only X H cfg request s)) <| ite_step ?_ <| ite_step ?_ <| ite_step ?_ <|
        ite_step ?_ <| ite_step ?_ <| ite_step ?_ <| ite_step (hr _) (hr _)
      · unfold uploadJs
        refine withToken_step ?_
        unfold guarded
        split
        · rename_i q hq
          simp only
          by_cases hn : Str.endsWith q.filename c!".js" = true
          · rw [if_pos hn]; exact storeJs_step X H cfg request s q hq hn
          · rw [if_neg hn]; exact .same
        · exact .same
        · exact .same
      · unfold updateJs
        refine withToken_step ?_
        unfold guarded
        split
        · rename_i q hq
          simp only
          cases hn : Str.endsWith q.filename c!".js" with
          | false => exact .same
          | true =>
            simp only [Bool.not_true, Bool.false_eq_true, if_false]
            exact ite_step .same (storeJs_step X H cfg request s q hq hn)
        · exact .same
        · exact .same
      · unfold deleteJsRequest
        refine withToken_step ?_
        unfold guarded
        split
        · rename_i name hq
          simp only
          cases hn : Str.endsWith name c!".js" with
          | false => exact .same
          | true =>
            simp only [Bool.not_true, Bool.false_eq_true, if_false]
            rcases deleteJs_cases H cfg s.fs name with h | ⟨p, hp, h⟩
            · rw [h]; exact .same
            · rw [h]; exact .delete name p hq hn hp
        · exact .same
        · exact .same
      · unfold listJs; exact withToken_step (ite_step .same .same)
      · unfold reloadHooks
        refine withToken_step (ite_step (ite_step ?_ .same) ?_)
        · cases registerAll X H s.reg (loadJs H cfg s.fs) with
          | mk r b => cases b <;> exact .same
        · have hk := FsStep.hooks (X := X) (H := H) (cfg := cfg) (request := request) (fs := s.fs)
          revert hk
          cases s.fs.createDirs cfg.cwd cfg.hooksDir with
          | mk f b => cases b <;> exact id
      · unfold clearCache; exact withToken_step .same
    · exact .same

/-! ### C56 -/

/-- The file name a request gives: that of an upload or update, or that of a deletion. -/
def Spec.NamesFile (X : Ext) (H : HttpExt) (request name : Str) : Prop :=
  (∃ q, jsRequest X H request = .ok q ∧ q.filename = name) ∨ jsonBody H.decodeDelete request = .ok name

/-- **C56.** A request changes at most one file: the one that the name it gives, which ends with `.js`, stands for when put after the hooks directory. -/
theorem C56_only_the_named (X : Ext) (H : HttpExt) (cfg : Config) (request : Str) (s : Site) (p : Path)
    (h : (handle X H cfg request s).2.fs.read p ≠ s.fs.read p) :
    ∃ name, NamesFile X H request name ∧ Str.endsWith name c!".js" = true ∧
      (handle X H cfg request s).2.fs.resolve cfg.cwd (joinPath cfg.hooksDir name) = some p := by
  have hs := handle_step X H cfg request s
  revert h hs
  generalize (handle X H cfg request s).2.fs = fs'
  intro h hs
  have hres : ∀ (fs fs' : Fs) (_ : fs'.dirs = fs.dirs) t, fs'.resolve cfg.cwd t = fs.resolve cfg.cwd t := by
    intro fs fs' hd t
    have hw : ∀ (cs : List Str) (cur : Path), walk fs' cur cs = walk fs cur cs := by
      intro cs
      induction cs with
      | nil => intro cur; rfl
      | cons c cs ih =>
        intro cur
        simp only [walk, ih]
        have : fs'.isDir (cur ++ [c]) = fs.isDir (cur ++ [c]) := by unfold Fs.isDir; rw [hd]
        rw [this]
    unfold Fs.resolve
    exact hw _ _
  cases hs with
  | same => exact absurd rfl h
  | hooks => exact absurd (read_of_files (createDirs_files _ _ _) p) h
  | save q code p' f b hq hn hc hv hp =>
    rw [read_write, read_of_files (withHooks_files cfg s.fs)] at h
    have : p = p' := by
      by_contra hne
      rw [if_neg hne] at h
      exact h rfl
    subst this
    exact ⟨q.filename, .inl ⟨q, hq, rfl⟩, hn, (hres (withHooks cfg s.fs) ((withHooks cfg s.fs).write p code) rfl _).trans hp⟩
  | delete name p' hq hn hp =>
    rw [read_remove] at h
    have : p = p' := by
      by_contra hne
      rw [if_neg hne] at h
      exact h rfl
    subst this
    exact ⟨name, .inr hq, hn, (hres s.fs (s.fs.remove p) rfl _).trans hp⟩

theorem js_name {name : Str} (h : Str.endsWith name c!".js" = true) : name ≠ [] ∧ name ≠ c!"." ∧ name ≠ c!".." := by
  refine ⟨?_, ?_, ?_⟩ <;> (rintro rfl; revert h; decide)

/-- **C56 (partial).** For names without a slash, that file is directly inside the hooks directory. -/
theorem C56_inside_partial (X : Ext) (H : HttpExt) (cfg : Config) (request : Str) (s : Site) (p : Path) (hplain : ∀ name, NamesFile X H request name → ∀ c ∈ name, c ≠ '/')
    (h : (handle X H cfg request s).2.fs.read p ≠ s.fs.read p) :
    ∃ dir name, (handle X H cfg request s).2.fs.resolve cfg.cwd cfg.hooksDir = some dir ∧ p = dir ++ [name] := by
  obtain ⟨name, hn, hj, hp⟩ := C56_only_the_named X H cfg request s p h
  obtain ⟨h1, h2, h3⟩ := js_name hj
  obtain ⟨d, hd, he⟩ := resolve_join _ _ _ _ _ (hplain name hn) h1 h2 h3 hp
  exact ⟨d, name, hd, he⟩

/-- A function file. -/
def Spec.aFunction : Str := c!"// @name: F\nfunction execute(args) { return 1; }"

/-- A server without tokens. -/
def Spec.open_ : Config := ⟨none, none, c!"hooks", [c!"srv"]⟩

/-- A site with a hooks directory and the directory `tmp`. -/
def Spec.site : Site := ⟨⟨[[c!"srv"], [c!"srv", c!"hooks"], [c!"tmp"]], []⟩, Registry.empty, HttpCache.Cache.new 10, 0⟩

/-- A body decoder that gives an upload with this name. -/
def Spec.uploading (H : HttpExt) (name code : Str) : HttpExt := { H with decodeJs := fun _ => .ok ⟨name, some code, none⟩, ioError := fun _ => false }

/-- **C56 fails.** An upload named `../x.js` or `/tmp/x.js` is written outside the hooks directory. -/
theorem C56_outside (X : Ext) (H : HttpExt) :
    (handle X (uploading H c!"../x.js" aFunction) open_ c!"POST /upload-js HTTP/1.1\r\n\r\n{}" site).2.fs.files = [([c!"srv", c!"x.js"], aFunction)] ∧
    (handle X (uploading H c!"/tmp/x.js" aFunction) open_ c!"POST /upload-js HTTP/1.1\r\n\r\n{}" site).2.fs.files = [([c!"tmp", c!"x.js"], aFunction)] := by
  exact ⟨by kernel_rfl, by kernel_rfl⟩

/-- A case of `C56_inside_partial`: an upload with a plain name. -/
example (X : Ext) (H : HttpExt) :
    (handle X (uploading H c!"x.js" aFunction) open_ c!"POST /upload-js HTTP/1.1\r\n\r\n{}" site).2.fs.files = [([c!"srv", c!"hooks", c!"x.js"], aFunction)] := by kernel_rfl

/-- The hypothesis of `C56_only_the_named`: an upload changes a file. -/
example (X : Ext) (H : HttpExt) := C56_only_the_named X (uploading H c!"x.js" aFunction) open_ c!"POST /upload-js HTTP/1.1\r\n\r\n{}" site [c!"srv", c!"hooks", c!"x.js"] (by
  rw [show (handle X (uploading H c!"x.js" aFunction) open_ c!"POST /upload-js HTTP/1.1\r\n\r\n{}" site).2.fs.read [c!"srv", c!"hooks", c!"x.js"] = some aFunction by kernel_rfl]
  exact fun h => nomatch h)

/-! ### C57 -/

/-- A sequence of requests, each handled at the site the one before left. -/
def Spec.serve (X : Ext) (H : HttpExt) (cfg : Config) : List Str → Site → Site
  | [], s => s
  | r :: rs, s => serve X H cfg rs (handle X H cfg r s).2

/-- The source of a function: it has a name, and the numbers in it are numbers. -/
def Spec.IsFunction (code : Str) : Prop := ∃ f, parseJs code = .ok f

theorem validate_parse {X : Ext} {H : HttpExt} {code : Str} {f : JsFunction} {b : Bool} (h : validateJs X H code = .ok (f, b)) : parseJs code = .ok f := by
  unfold validateJs at h
  cases hp : parseJs code with
  | error e => rw [hp] at h; cases e <;> exact absurd h (by simp [fail])
  | ok g =>
    rw [hp] at h
    simp only at h
    cases he : g.example_ with
    | none => rw [he] at h; simp only [Except.ok.injEq, Prod.mk.injEq] at h; rw [h.1]
    | some e =>
      rw [he] at h
      cases hx : exampleHolds X H g e with
      | error e => simp [hx, bind, Except.bind] at h
      | ok b' => simp only [hx, bind, Except.bind, pure, Except.pure, Except.ok.injEq, Prod.mk.injEq] at h; rw [h.1]

/-- **C57.** Over every sequence of requests: the content of a file is as at the start, or it is the source of a function. -/
theorem C57_saved_are_functions (X : Ext) (H : HttpExt) (cfg : Config) (rs : List Str) (s : Site) (p : Path) (code : Str)
    (h : (serve X H cfg rs s).fs.read p = some code) : s.fs.read p = some code ∨ IsFunction code := by
  induction rs generalizing s with
  | nil => exact .inl h
  | cons r rs ih =>
    rcases ih (handle X H cfg r s).2 h with h1 | h1
    · have hs := handle_step X H cfg r s
      revert h1 hs
      generalize (handle X H cfg r s).2.fs = fs'
      intro h1 hs
      cases hs with
      | same => exact .inl h1
      | hooks => rw [read_of_files (createDirs_files _ _ _)] at h1; exact .inl h1
      | save q c p' f b hq hn hc hv hp =>
        rw [read_write, read_of_files (withHooks_files cfg s.fs)] at h1
        split at h1
        · simp only [Option.some.injEq] at h1
          exact .inr ⟨f, by rw [← h1]; exact validate_parse hv⟩
        · exact .inl h1
      | delete name p' hq hn hp =>
        rw [read_remove] at h1
        split at h1
        · exact absurd h1 (by simp)
        · exact .inl h1
    · exact .inr h1

/-- A function whose own example says it returns 2. -/
def Spec.wrongExample : Str := c!"// @name: F\n// @example: F(1) returns 2\nfunction execute(args) { return args[0]; }"

/-- **C57 fails.** A function that fails its own example is saved all the same: the failed test is reported, with status 200. -/
theorem C57_failing_example_saved (X : Ext) (H : HttpExt) (hrun : ∀ code args, H.runJs code args = .ok (.num (.fin 1))) :
    ((validateJs X H wrongExample).toOption.map (·.2)) = some false ∧
    (handle X (uploading H c!"x.js" wrongExample) open_ c!"POST /upload-js HTTP/1.1\r\n\r\n{}" site).2.fs.files = [([c!"srv", c!"hooks", c!"x.js"], wrongExample)] := by
  obtain ⟨d1, d2, d3, run, d5, d6⟩ := H
  have : run = fun _ _ => .ok (.num (.fin 1)) := by funext c a; exact hrun c a
  subst this
  exact ⟨by kernel_rfl, by kernel_rfl⟩

theorem register_keeps {X : Ext} {r r' : Registry} {f : CustomFn} {n : Str} (h : r.register X f = .ok r') (hn : (r n).isSome) : (r' n).isSome := by
  unfold Registry.register at h
  simp only at h
  split at h
  · exact absurd h (by simp [fail])
  · split at h
    · exact absurd h (by simp [fail])
    · simp only [Except.ok.injEq] at h
      rw [← h]
      simp only
      split
      · rfl
      · exact hn

theorem registerAll_keeps (X : Ext) (H : HttpExt) (n : Str) : ∀ (fs : List JsFunction) (r : Registry), (r n).isSome → ((registerAll X H r fs).1 n).isSome
  | [], _, h => h
  | f :: fs, r, h => by
    unfold registerAll
    cases hr : r.register X (f.custom H) with
    | error e => exact h
    | ok r' => exact registerAll_keeps X H n fs r' (register_keeps hr h)

theorem reg_of_only {s s' : Site} (h : OnlyEvaluated s s') : s'.reg = s.reg := h.2.1

/-- Handling a request leaves the registry, or registers functions from the files. -/
theorem handle_reg (X : Ext) (H : HttpExt) (cfg : Config) (request : Str) (s : Site) :
    (handle X H cfg request s).2.reg = s.reg ∨ (handle X H cfg request s).2.reg = (registerAll X H s.reg (loadJs H cfg s.fs)).1 := by
  have ite_reg : ∀ {p : Prop} [Decidable p] {a b : Outcome}, (a.2.reg = s.reg ∨ a.2.reg = (registerAll X H s.reg (loadJs H cfg s.fs)).1) →
      (b.2.reg = s.reg ∨ b.2.reg = (registerAll X H s.reg (loadJs H cfg s.fs)).1) →
      (if p then a else b).2.reg = s.reg ∨ (if p then a else b).2.reg = (registerAll X H s.reg (loadJs H cfg s.fs)).1 := by
    intro p _ a b ha hb
    by_cases h : p
    · rw [if_pos h]; exact ha
    · rw [if_neg h]; exact hb
  have token_reg : ∀ {t : Option Str} {k : Outcome}, (k.2.reg = s.reg ∨ k.2.reg = (registerAll X H s.reg (loadJs H cfg s.fs)).1) →
      (withToken X request t s k).2.reg = s.reg ∨ (withToken X request t s k).2.reg = (registerAll X H s.reg (loadJs H cfg s.fs)).1 := by
    intro t k hk
    rcases withToken_either X request t s k with h | h
    · rw [h]; exact .inl rfl
    · rw [h]; exact hk
  have store_reg : ∀ n c, (storeJs X H cfg s n c).2.reg = s.reg := by
    intro n c
    unfold storeJs
    cases c with
    | none => rfl
    | some code =>
      simp only [guarded]
      cases hv : validateJs X H code with
      | error f => cases f <;> rfl
      | ok fb =>
        simp only
        rcases saveJs_cases H cfg s.fs n code with h | ⟨p, hp, h⟩ <;> rw [h] <;> rfl
  unfold handle
  split
  · exact .inl rfl
  · split
    · unfold route
      refine ite_reg (.inl rfl) <| ite_reg (.inl rfl) <| ite_reg (.inl rfl) <| ite_reg (.inl rfl) <|
        ite_reg (.inl (reg_of_only (evalPost_only X H cfg request s))) <| ite_reg (.inl (reg_of_only (evalGet_only X H cfg request s))) <| ite_reg ?_ <| ite_reg ?_ <| ite_reg ?_ <|
        ite_reg ?_ <| ite_reg ?_ <| ite_reg ?_ <| ite_reg (.inl rfl) (.inl rfl)
      · unfold uploadJs
        refine token_reg (.inl ?_)
        unfold guarded
        split
        · simp only
          split
          · exact store_reg _ _
          · rfl
        · rfl
        · rfl
      · unfold updateJs
        refine token_reg (.inl ?_)
        unfold guarded
        split
        · simp only
          split
          · rfl
          · split
            · rfl
            · exact store_reg _ _
        · rfl
        · rfl
      · unfold deleteJsRequest
        refine token_reg (.inl ?_)
        unfold guarded
        split
        · rename_i name _
          simp only
          split
          · rfl
          · rcases deleteJs_cases H cfg s.fs name with h | ⟨p, hp, h⟩ <;> rw [h] <;> rfl
        · rfl
        · rfl
      · unfold listJs; exact token_reg (ite_reg (.inl rfl) (.inl rfl))
      · unfold reloadHooks
        refine token_reg (ite_reg (ite_reg ?_ (.inl rfl)) ?_)
        · cases hra : registerAll X H s.reg (loadJs H cfg s.fs) with
          | mk r b => cases b <;> exact .inr rfl
        · cases s.fs.createDirs cfg.cwd cfg.hooksDir with
          | mk f b => cases b <;> exact .inl rfl
      · unfold clearCache; exact token_reg (.inl rfl)
    · exact .inl rfl

/-- **C57 fails, always.** Over every sequence of requests, deletions and reloads included, a function that was registered stays registered. -/
theorem C57_never_unregistered (X : Ext) (H : HttpExt) (cfg : Config) (rs : List Str) (s : Site) (name : Str) (h : s.reg.has X name = true) :
    (serve X H cfg rs s).reg.has X name = true := by
  induction rs generalizing s with
  | nil => exact h
  | cons r rs ih =>
    refine ih _ ?_
    unfold Registry.has at h ⊢
    rcases handle_reg X H cfg r s with hr | hr
    · rw [hr]; exact h
    · rw [hr]; exact registerAll_keeps X H _ _ _ h

theorem registerAll_from (X : Ext) (H : HttpExt) (n : Str) (g : CustomFn) : ∀ (fs : List JsFunction) (r : Registry), (registerAll X H r fs).1 n = some g →
    r n = some g ∨ ∃ f ∈ fs, g = f.custom H ∧ n = X.upper f.name
  | [], _, h => .inl h
  | f :: fs, r, h => by
    unfold registerAll at h
    cases hr : r.register X (f.custom H) with
    | error e => rw [hr] at h; exact .inl h
    | ok r' =>
      rw [hr] at h
      rcases registerAll_from X H n g fs r' h with h1 | ⟨f', hf', h1⟩
      · unfold Registry.register at hr
        simp only at hr
        split at hr
        · exact absurd hr (by simp [fail])
        · split at hr
          · exact absurd hr (by simp [fail])
          · simp only [Except.ok.injEq] at hr
            rw [← hr] at h1
            simp only at h1
            split at h1
            · rename_i hn
              simp only [Option.some.injEq] at h1
              exact .inr ⟨f, by simp, h1.symm, hn⟩
            · exact .inl h1
      · exact .inr ⟨f', by simp [hf'], h1⟩

/-- A function file below the hooks directory that defines the function registered under this name. -/
def Spec.DefinedIn (X : Ext) (H : HttpExt) (cfg : Config) (fs : Fs) (n : Str) (g : CustomFn) : Prop :=
  ∃ dir path code f, fs.resolve cfg.cwd cfg.hooksDir = some dir ∧ dir <+: path ∧ (path, code) ∈ fs.files ∧ parseJs code = .ok f ∧ n = X.upper f.name ∧ g = f.custom H

theorem loadJs_from (H : HttpExt) (hl : ∀ fs, ∀ f ∈ H.listing fs, f ∈ fs) (cfg : Config) (fs : Fs) (f : JsFunction) (h : f ∈ loadJs H cfg fs) :
    ∃ dir path code, fs.resolve cfg.cwd cfg.hooksDir = some dir ∧ dir <+: path ∧ (path, code) ∈ fs.files ∧ parseJs code = .ok f := by
  unfold loadJs at h
  cases hd : fs.resolve cfg.cwd cfg.hooksDir with
  | none => rw [hd] at h; simp at h
  | some dir =>
    rw [hd] at h
    simp only [List.mem_filterMap] at h
    obtain ⟨⟨path, code⟩, hm, hf⟩ := h
    obtain ⟨hm1, hm2⟩ := List.mem_filter.1 hm
    simp only [Bool.and_eq_true, List.isPrefixOf_iff_prefix] at hm2
    refine ⟨dir, path, code, rfl, hm2.1, hl _ _ hm1, ?_⟩
    cases hp : parseJs code with
    | error e => rw [hp] at hf; simp at hf
    | ok g => rw [hp] at hf; simp only [Option.some.injEq] at hf; rw [hf]

/-- **C57.** A request only ever makes functions callable that a file below the hooks directory defines at that moment. -/
theorem C57_registered_from_files (X : Ext) (H : HttpExt) (hl : ∀ fs, ∀ f ∈ H.listing fs, f ∈ fs) (cfg : Config) (request : Str) (s : Site) (n : Str) (g : CustomFn)
    (h : (handle X H cfg request s).2.reg n = some g) : s.reg n = some g ∨ DefinedIn X H cfg s.fs n g := by
  rcases handle_reg X H cfg request s with hr | hr
  · rw [hr] at h; exact .inl h
  · rw [hr] at h
    rcases registerAll_from X H n g _ _ h with h1 | ⟨f, hf, hg, hn⟩
    · exact .inl h1
    · obtain ⟨dir, path, code, h1, h2, h3, h4⟩ := loadJs_from H hl cfg s.fs f hf
      exact .inr ⟨dir, path, code, f, h1, h2, h3, h4, hn, hg⟩

/-- **C57 (partial).** After the server has been started anew, exactly functions of the files that are still there are callable: a deleted one is gone if no other file defines it. -/
theorem C57_restart_partial (X : Ext) (H : HttpExt) (hl : ∀ fs, ∀ f ∈ H.listing fs, f ∈ fs) (cfg : Config) (fs : Fs) (n : Str) (g : CustomFn)
    (h : (registerAll X H Registry.empty (loadJs H cfg fs)).1 n = some g) : DefinedIn X H cfg fs n g := by
  rcases registerAll_from X H n g _ _ h with h1 | ⟨f, hf, hg, hn⟩
  · exact absurd h1 (by simp [Registry.empty])
  · obtain ⟨dir, path, code, h1, h2, h3, h4⟩ := loadJs_from H hl cfg fs f hf
    exact ⟨dir, path, code, f, h1, h2, h3, h4, hn, hg⟩

/-- A case: upload, reload, delete, reload. The file is gone and the function is there; after a new start it is not. -/
theorem C57_delete_and_reload (X : Ext) (H : HttpExt) :
    let H := { uploading H c!"x.js" aFunction with decodeDelete := fun _ => .ok c!"x.js", listing := id }
    let up := c!"POST /upload-js HTTP/1.1\r\n\r\n{}"
    let reload := c!"POST /reload-hooks HTTP/1.1\r\n\r\n"
    let del := c!"DELETE /delete-js HTTP/1.1\r\n\r\n{}"
    (serve X H open_ [up] site).fs.files = [([c!"srv", c!"hooks", c!"x.js"], aFunction)] ∧
    (serve X H open_ [up] site).reg.has X c!"f" = false ∧
    (serve X H open_ [up, reload] site).reg.has X c!"f" = true ∧
    (serve X H open_ [up, reload, del, reload] site).fs.files = [] ∧
    (serve X H open_ [up, reload, del, reload] site).reg.has X c!"f" = true ∧
    Registry.has X (registerAll X H Registry.empty (loadJs H open_ (serve X H open_ [up, reload, del, reload] site).fs)).1 c!"f" = false := by
  refine ⟨by kernel_rfl, by kernel_rfl, by kernel_rfl, by kernel_rfl, by kernel_rfl, by kernel_rfl⟩
