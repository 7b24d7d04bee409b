import Verif.Model.HttpList
import Verif.Props.HttpFiles
import Verif.Props.CacheKeys
/-! C99: the listing of function files. -/

open Http Spec

namespace HttpList

/-- The name of a function file: something followed by `.js`. -/
def Spec.JsName (name : Str) : Prop := ∃ stem, stem ≠ [] ∧ name = stem ++ c!".js"

/-- `file` is a function file below `dir`, `below` being its path from there. -/
def Spec.FileBelow (fs : Fs) (dir : Path) (below : List Str) (code : Str) : Prop :=
  (dir ++ below, code) ∈ fs.files ∧ ∃ parents name, dir ++ below = parents ++ [name] ∧ JsName name

/-- The entry of such a file: its path with slashes, its length in bytes, and the function it defines if it defines one. -/
def Spec.EntryOf (below : List Str) (code : Str) (i : FileInfo) : Prop :=
  i.filename = c!"/".intercalate below ∧ i.size = (code.flatMap String.utf8EncodeChar).length ∧ ∀ f, i.function = some f ↔ parseJs code = .ok f

open HttpList.Spec

theorem isJs_iff (p : Path) : isJs p = true ↔ ∃ parents name, p = parents ++ [name] ∧ JsName name := by
  unfold isJs
  cases h : p.getLast? with
  | none =>
    rw [List.getLast?_eq_none_iff] at h
    subst h
    simp
  | some n =>
    obtain ⟨ys, hys⟩ := List.getLast?_eq_some_iff.1 h
    subst hys
    have key : (Str.endsWith n c!".js" && decide (3 < n.length)) = true ↔ JsName n := by
      rw [Bool.and_eq_true, decide_eq_true_iff]
      unfold Str.endsWith
      rw [startsWith_iff]
      constructor
      · rintro ⟨⟨r, hr⟩, hl⟩
        refine ⟨r.reverse, ?_, ?_⟩
        · intro h0
          have h0 : r = [] := by simpa using h0
          subst h0
          have : n.reverse.length = 3 := by rw [← hr]; rfl
          simp at this; omega
        · rw [← List.reverse_reverse n, ← hr]; simp
      · rintro ⟨stem, h0, rfl⟩
        refine ⟨⟨stem.reverse, by simp⟩, ?_⟩
        have := List.length_pos_iff.2 h0
        simp; omega
    simp only [key]
    constructor
    · intro hn; exact ⟨ys, n, rfl, hn⟩
    · rintro ⟨a, b, hab, hb⟩
      have := List.append_inj_right' hab rfl
      simp at this
      subst this
      exact hb

theorem join_eq (sep : Str) : ∀ l : List Str, Str.join sep l = sep.intercalate l
  | [] => rfl
  | [a] => by simp [Str.join, List.intercalate]
  | a :: b :: rest => by
    rw [Str.join, join_eq sep (b :: rest)]
    simp [List.intercalate, List.intersperse]

theorem entry_of (dir : Path) (below : List Str) (code : Str) : EntryOf below code (fileInfo dir (dir ++ below, code)) := by
  refine ⟨?_, rfl, ?_⟩
  · simp [fileInfo, join_eq]
  · intro f
    unfold fileInfo
    cases parseJs code <;> simp [Except.toOption]

variable (X : Ext) (H : HttpExt) (cfg : Config) (fs : Fs)

/-- The files that are listed, in the order of the directories. -/
def below (dir : Path) : List (Path × Str) := (H.listing fs.files).filter fun f => dir.isPrefixOf f.1 && isJs f.1

theorem list_eq {dir : Path} (hd : fs.resolve cfg.cwd cfg.hooksDir = some dir) (hdir : fs.isDir dir = true) :
    listFunctions H cfg fs = .ok (((below H fs dir).map (fileInfo dir)).mergeSort fun a b => Str.le a.filename b.filename) := by
  have he : fs.exists cfg.cwd cfg.hooksDir = true := by unfold Fs.exists; rw [hd]; simp [hdir]
  unfold listFunctions
  rw [if_pos he, hd]
  simp only [if_pos hdir]
  rfl

/-- **C99.** When the hooks directory is there, the listing succeeds; it has an entry for every function file below the directory, at any depth, and only entries of such files, each
with what is in the file; and it is ordered by file name. -/
theorem C99_lists_the_files (hl : ∀ l, (H.listing l).Perm l) {dir : Path} (hd : fs.resolve cfg.cwd cfg.hooksDir = some dir) (hdir : fs.isDir dir = true) :
    ∃ entries, listFunctions H cfg fs = .ok entries ∧
      (∀ below code, FileBelow fs dir below code → ∃ i ∈ entries, EntryOf below code i) ∧
      (∀ i ∈ entries, ∃ below code, FileBelow fs dir below code ∧ EntryOf below code i) ∧
      entries.length = (fs.files.filter fun f => dir.isPrefixOf f.1 && isJs f.1).length ∧
      entries.Pairwise (fun a b => Str.le a.filename b.filename = true) := by
  refine ⟨_, list_eq H cfg fs hd hdir, ?_, ?_, ?_, ?_⟩
  · rintro bl code ⟨hm, hj⟩
    refine ⟨fileInfo dir (dir ++ bl, code), ?_, entry_of dir bl code⟩
    rw [List.mem_mergeSort, List.mem_map]
    refine ⟨_, ?_, rfl⟩
    unfold below
    rw [List.mem_filter]
    refine ⟨(hl _).mem_iff.2 hm, ?_⟩
    rw [Bool.and_eq_true, isJs_iff]
    exact ⟨by simp, hj⟩
  · intro i hi
    rw [List.mem_mergeSort, List.mem_map] at hi
    obtain ⟨⟨p, code⟩, hf, rfl⟩ := hi
    unfold below at hf
    rw [List.mem_filter, Bool.and_eq_true, isJs_iff, List.isPrefixOf_iff_prefix] at hf
    obtain ⟨h1, ⟨bl, hbl⟩, h3⟩ := hf
    simp only at hbl h3
    subst hbl
    exact ⟨bl, code, ⟨(hl _).mem_iff.1 h1, h3⟩, entry_of dir bl code⟩
  · rw [List.length_mergeSort, List.length_map]
    exact ((hl _).filter _).length_eq
  · exact List.pairwise_mergeSort (le := fun a b : FileInfo => Str.le a.filename b.filename) (fun a b c h1 h2 => Str.le_trans' a.filename b.filename c.filename h1 h2)
      (fun a b => by
        by_cases h : Str.le a.filename b.filename = true
        · simp [h]
        · simp [Str.le_of_not _ _ h]) _

/-- **C99.** The functions of the entries that are marked valid are exactly the functions a start of the server or a reload reads. -/
theorem C99_valid_are_loaded {dir : Path} (hd : fs.resolve cfg.cwd cfg.hooksDir = some dir) (hdir : fs.isDir dir = true)
    (entries : List FileInfo) (h : listFunctions H cfg fs = .ok entries) :
    (entries.filterMap (·.function)).Perm (loadJs H cfg fs) := by
  rw [list_eq H cfg fs hd hdir] at h
  cases h
  refine (((List.mergeSort_perm _ _).filterMap _)).trans ?_
  rw [List.filterMap_map]
  unfold loadJs
  rw [hd]
  refine List.Perm.of_eq ?_
  unfold below
  congr 1
  funext f
  show (parseJs f.2).toOption = _
  cases parseJs f.2 <;> rfl

theorem register_ok {X : Ext} {r r' : Registry} {f : CustomFn} (h : r.register X f = .ok r') : r' = fun n => if n = X.upper f.name then some f else r n := by
  unfold Registry.register at h
  simp only at h
  split at h
  · exact absurd h (by simp [fail])
  · split at h
    · exact absurd h (by simp [fail])
    · simp only [Except.ok.injEq] at h
      exact h.symm

theorem registerAll_all (n : Str) : ∀ (fs : List JsFunction) (r r' : Registry), registerAll X H r fs = (r', true) → (∃ f ∈ fs, X.upper f.name = n) →
    ∃ f ∈ fs, X.upper f.name = n ∧ r' n = some (f.custom H)
  | [], _, _, _, h => by obtain ⟨f, hf, _⟩ := h; cases hf
  | f :: fs, r, r', h, hex => by
    unfold registerAll at h
    cases hr : r.register X (f.custom H) with
    | error e => rw [hr] at h; simp at h
    | ok r1 =>
      rw [hr] at h
      simp only at h
      by_cases hin : ∃ g ∈ fs, X.upper g.name = n
      · obtain ⟨g, hg, h1, h2⟩ := registerAll_all n fs r1 r' h hin
        exact ⟨g, List.mem_cons_of_mem _ hg, h1, h2⟩
      · obtain ⟨g, hg, hgn⟩ := hex
        rcases List.mem_cons.1 hg with rfl | hg
        · refine ⟨g, by simp, hgn, ?_⟩
          have hkeep : ∀ (l : List JsFunction) (a b : Registry), registerAll X H a l = (b, true) → (¬ ∃ g ∈ l, X.upper g.name = n) → b n = a n := by
            intro l
            induction l with
            | nil => intro a b h _; unfold registerAll at h; cases h; rfl
            | cons x l ih =>
              intro a b h hno
              unfold registerAll at h
              cases ha : a.register X (x.custom H) with
              | error e => rw [ha] at h; simp at h
              | ok a1 =>
                rw [ha] at h
                rw [ih a1 b h (fun ⟨g, hg, e⟩ => hno ⟨g, List.mem_cons_of_mem _ hg, e⟩), register_ok ha]
                exact if_neg (fun e => hno ⟨x, by simp, e.symm⟩)
          rw [hkeep fs r1 r' h hin, register_ok hr]
          exact if_pos hgn.symm
        · exact absurd ⟨g, hg, hgn⟩ hin

theorem withToken_200 {request : Str} {token : Option Str} {s : Site} {k : Outcome} {r : Reply} (h : (withToken X request token s k).1 = some r) (hr : r.status = 200) :
    withToken X request token s k = k := by
  unfold withToken guarded at *
  split at h
  · simp only at h ⊢
    split at h
    · rename_i ha; rw [if_pos ha]
    · simp only [reply, Option.some.injEq] at h; rw [← h] at hr; simp at hr
  · simp only [reply, Option.some.injEq] at h; rw [← h] at hr; simp at hr
  · simp at h

/-- **C99.** After a reload that is answered with 200, every name that a listed valid function has can be called, and what is called is one of the listed valid functions of that name. -/
theorem C99_reload (request : Str) (s : Site) {dir : Path} (hd : s.fs.resolve cfg.cwd cfg.hooksDir = some dir) (hdir : s.fs.isDir dir = true)
    (entries : List FileInfo) (h : listFunctions H cfg s.fs = .ok entries) (r : Reply) (hr : r.status = 200)
    (hrel : (route X H cfg c!"POST" c!"/reload-hooks" request s).1 = some r)
    (i : FileInfo) (hi : i ∈ entries) (f : JsFunction) (hf : i.function = some f) :
    ∃ j ∈ entries, ∃ g, j.function = some g ∧ X.upper g.name = X.upper f.name ∧
      (route X H cfg c!"POST" c!"/reload-hooks" request s).2.reg.get X f.name = some (g.custom H) := by
  have hperm := C99_valid_are_loaded H cfg s.fs hd hdir entries h
  have he : s.fs.exists cfg.cwd cfg.hooksDir = true := by unfold Fs.exists; rw [hd]; simp [hdir]
  have e : route X H cfg c!"POST" c!"/reload-hooks" request s = reloadHooks X H cfg request s := rfl
  rw [e] at hrel ⊢
  unfold reloadHooks at hrel ⊢
  rw [withToken_200 X hrel hr]
  rw [withToken_200 X hrel hr] at hrel
  have hrd : hooksReadable cfg s.fs = true := by unfold hooksReadable; rw [hd]; exact hdir
  rw [if_pos he, if_pos hrd] at hrel ⊢
  cases hra : registerAll X H s.reg (loadJs H cfg s.fs) with
  | mk reg b =>
    rw [hra] at hrel
    cases b with
    | false => simp only [reply, Option.some.injEq] at hrel; rw [← hrel] at hr; simp at hr
    | true =>
      have hmem : f ∈ loadJs H cfg s.fs := hperm.mem_iff.1 (List.mem_filterMap.2 ⟨i, hi, hf⟩)
      obtain ⟨g, hg, hgn, hgr⟩ := registerAll_all X H (X.upper f.name) _ _ _ hra ⟨f, hmem, rfl⟩
      obtain ⟨j, hj, hjg⟩ := List.mem_filterMap.1 (hperm.mem_iff.2 hg)
      exact ⟨j, hj, g, hjg, hgn, hgr⟩

/-! ### Uploads and deletions -/

/-- A name of a file right in the hooks directory. -/
def Spec.PlainJsName (name : Str) : Prop := JsName name ∧ ∀ c ∈ name, c ≠ '/'

theorem plain_ne {name : Str} (h : PlainJsName name) : name ≠ [] ∧ name ≠ c!"." ∧ name ≠ c!".." := by
  obtain ⟨⟨stem, h0, rfl⟩, -⟩ := h
  have := List.length_pos_iff.2 h0
  refine ⟨?_, ?_, ?_⟩ <;> intro e <;> have := congrArg List.length e <;> simp at this

theorem mem_list (hl : ∀ l, (H.listing l).Perm l) {dir : Path} (hd : fs.resolve cfg.cwd cfg.hooksDir = some dir) (hdir : fs.isDir dir = true) {entries : List FileInfo}
    (h : listFunctions H cfg fs = .ok entries) (i : FileInfo) :
    i ∈ entries ↔ ∃ below code, (dir ++ below, code) ∈ fs.files ∧ isJs (dir ++ below) = true ∧ i = fileInfo dir (dir ++ below, code) := by
  rw [list_eq H cfg fs hd hdir] at h
  cases h
  rw [List.mem_mergeSort, List.mem_map]
  constructor
  · rintro ⟨⟨p, code⟩, hf, rfl⟩
    unfold below at hf
    rw [List.mem_filter, Bool.and_eq_true, List.isPrefixOf_iff_prefix] at hf
    obtain ⟨h1, ⟨bl, hbl⟩, h3⟩ := hf
    simp only at hbl h3
    subst hbl
    exact ⟨bl, code, (hl _).mem_iff.1 h1, h3, rfl⟩
  · rintro ⟨bl, code, h1, h2, rfl⟩
    refine ⟨_, ?_, rfl⟩
    unfold below
    rw [List.mem_filter, Bool.and_eq_true]
    exact ⟨(hl _).mem_iff.2 h1, by simp, h2⟩

theorem intercalate_plain {bl : List Str} {name : Str} (h0 : name ≠ []) (h : ∀ c ∈ name, c ≠ '/') (e : c!"/".intercalate bl = name) : bl = [name] := by
  match bl with
  | [] => exact absurd e.symm h0
  | [a] => simpa [List.intercalate] using e
  | a :: b :: rest =>
    exfalso
    refine h '/' ?_ rfl
    rw [← e]
    simp [List.intercalate, List.intersperse]

theorem filename_eq (dir : Path) (bl : List Str) (code : Str) : (fileInfo dir (dir ++ bl, code)).filename = c!"/".intercalate bl := (entry_of dir bl code).1

/-- A path to a plain name below the hooks directory. -/
theorem resolve_plain {dir p : Path} {name : Str} (hn : PlainJsName name) (hd : fs.resolve cfg.cwd cfg.hooksDir = some dir)
    (hp : fs.resolve cfg.cwd (joinPath cfg.hooksDir name) = some p) : p = dir ++ [name] := by
  obtain ⟨d, h1, h2⟩ := resolve_join fs cfg.cwd cfg.hooksDir name p hn.2 (plain_ne hn).1 (plain_ne hn).2.1 (plain_ne hn).2.2 hp
  rw [hd] at h1
  cases h1
  exact h2

theorem resolve_dirs {a b : Fs} (h : a.dirs = b.dirs) (cwd : Path) (t : Str) : a.resolve cwd t = b.resolve cwd t := by
  have hw : ∀ (l : List Str) (cur : Path), walk a cur l = walk b cur l := by
    intro l
    induction l with
    | nil => intro cur; rfl
    | cons c l ih =>
      intro cur
      have hi : ∀ p, a.isDir p = b.isDir p := fun p => by unfold Fs.isDir; rw [h]
      unfold walk
      rw [ih, ih, hi]
  exact hw _ _

/-- How an accepted file changes the listing. -/
theorem store_list (hl : ∀ l, (H.listing l).Perm l) {s : Site} {dir : Path} (hd : s.fs.resolve cfg.cwd cfg.hooksDir = some dir) (hdir : s.fs.isDir dir = true)
    {name : Str} {c : Option Str} (hn : PlainJsName name) {r : Reply} (hr : r.status = 200) (h : (storeJs X H cfg s name c).1 = some r) :
    ∃ code f, c = some code ∧ parseJs code = .ok f ∧ ∀ before, listFunctions H cfg s.fs = .ok before → ∃ after, listFunctions H cfg (storeJs X H cfg s name c).2.fs = .ok after ∧
      (∀ i, i ∈ after ↔ (i ∈ before ∧ i.filename ≠ name) ∨ i = ⟨name, some f, (code.flatMap String.utf8EncodeChar).length⟩) := by
  have he : s.fs.exists cfg.cwd cfg.hooksDir = true := by unfold Fs.exists; rw [hd]; simp [hdir]
  have hw : withHooks cfg s.fs = s.fs := by unfold withHooks; rw [if_pos he]
  unfold storeJs at h ⊢
  cases c with
  | none => simp only [reply, Option.some.injEq] at h; rw [← h] at hr; simp at hr
  | some code =>
    simp only at h ⊢
    unfold guarded at h ⊢
    rcases hv : validateJs X H code with (⟨m, a, b⟩ | w) | ⟨f, b⟩
    · rw [hv] at h; simp only [reply, Option.some.injEq] at h; rw [← h] at hr; simp at hr
    · rw [hv] at h; simp at h
    · rw [hv] at h
      simp only at h ⊢
      have hpf := validate_parse hv
      rcases saveJs_cases H cfg s.fs name code with hs | ⟨p, hp, hs⟩
      · rw [hs] at h; simp only [reply, Option.some.injEq] at h; rw [← h] at hr; simp at hr
      · rw [hw] at hp hs
        have := resolve_plain cfg s.fs hn hd hp
        subst this
        refine ⟨code, f, rfl, hpf, ?_⟩
        intro before hb
        rw [hs]
        simp only [reply]
        have hd' : (s.fs.write (dir ++ [name]) code).resolve cfg.cwd cfg.hooksDir = some dir := by rw [← hd]; exact resolve_dirs (a := s.fs.write (dir ++ [name]) code) (b := s.fs) rfl _ _
        have hdir' : (s.fs.write (dir ++ [name]) code).isDir dir = true := hdir
        refine ⟨_, list_eq H cfg _ hd' hdir', ?_⟩
        intro i
        rw [mem_list H cfg _ hl hd' hdir' (list_eq H cfg _ hd' hdir'), mem_list H cfg _ hl hd hdir hb]
        have hnew : fileInfo dir (dir ++ [name], code) = ⟨name, some f, (code.flatMap String.utf8EncodeChar).length⟩ := by
          unfold fileInfo; rw [hpf]; simp [Str.join, Except.toOption]
        constructor
        · rintro ⟨bl, cd, hm, hj, rfl⟩
          unfold Fs.write at hm
          rcases List.mem_cons.1 hm with hm | hm
          · right
            simp only [Prod.mk.injEq, List.append_cancel_left_eq] at hm
            obtain ⟨rfl, rfl⟩ := hm
            exact hnew
          · left
            rw [List.mem_filter] at hm
            refine ⟨⟨bl, cd, hm.1, hj, rfl⟩, ?_⟩
            intro e
            rw [filename_eq] at e
            have := intercalate_plain (plain_ne hn).1 hn.2 e
            subst this
            simp at hm
        · rintro (⟨⟨bl, cd, hm, hj, rfl⟩, hne⟩ | rfl)
          · refine ⟨bl, cd, ?_, hj, rfl⟩
            unfold Fs.write
            refine List.mem_cons_of_mem _ (List.mem_filter.2 ⟨hm, ?_⟩)
            rw [decide_eq_true_iff]
            intro e
            simp only [List.append_cancel_left_eq] at e
            subst e
            exact hne (by rw [filename_eq]; simp [List.intercalate])
          · refine ⟨[name], code, by simp [Fs.write], ?_, hnew.symm⟩
            rw [isJs_iff]
            exact ⟨dir, name, rfl, hn.1⟩

/-- **C99.** After an upload or an update that is answered with 200, of a file right in the hooks directory, the listing has that file, valid, with the function in the code that was sent
and its length, in place of any earlier entry of that name, and the other entries are as they were. -/
theorem C99_upload (hl : ∀ l, (H.listing l).Perm l) (method path request : Str) (hm : (method, path) = (c!"POST", c!"/upload-js") ∨ (method, path) = (c!"PUT", c!"/update-js"))
    (s : Site) {dir : Path} (hd : s.fs.resolve cfg.cwd cfg.hooksDir = some dir) (hdir : s.fs.isDir dir = true)
    (q : JsRequest) (hq : jsRequest X H request = .ok q) (hn : PlainJsName q.filename)
    (r : Reply) (hr : r.status = 200) (h : (route X H cfg method path request s).1 = some r) :
    ∃ code f, (q.jsCode = some code ∨ q.jsCode = none ∧ q.fileContent = some code) ∧ parseJs code = .ok f ∧
      ∀ before, listFunctions H cfg s.fs = .ok before → ∃ after, listFunctions H cfg (route X H cfg method path request s).2.fs = .ok after ∧
        ∀ i, i ∈ after ↔ (i ∈ before ∧ i.filename ≠ q.filename) ∨ i = ⟨q.filename, some f, (code.flatMap String.utf8EncodeChar).length⟩ := by
  have key : route X H cfg method path request s = storeJs X H cfg s q.filename q.code := by
    rcases hm with hm | hm <;> simp only [Prod.mk.injEq] at hm <;> obtain ⟨rfl, rfl⟩ := hm
    · have e : route X H cfg c!"POST" c!"/upload-js" request s = uploadJs X H cfg request s := rfl
      rw [e] at h ⊢
      unfold uploadJs at h ⊢
      rw [withToken_200 X h hr]
      rw [withToken_200 X h hr] at h
      unfold guarded at h ⊢
      rw [hq] at h ⊢
      simp only at h ⊢
      split at h
      · rename_i hh; rw [if_pos hh]
      · simp only [reply, Option.some.injEq] at h; rw [← h] at hr; simp at hr
    · have e : route X H cfg c!"PUT" c!"/update-js" request s = updateJs X H cfg request s := rfl
      rw [e] at h ⊢
      unfold updateJs at h ⊢
      rw [withToken_200 X h hr]
      rw [withToken_200 X h hr] at h
      unfold guarded at h ⊢
      rw [hq] at h ⊢
      simp only at h ⊢
      split at h
      · simp only [reply, Option.some.injEq] at h; rw [← h] at hr; simp at hr
      · rename_i h1
        rw [if_neg h1]
        split at h
        · simp only [reply, Option.some.injEq] at h; rw [← h] at hr; simp at hr
        · rename_i h2; rw [if_neg h2]
  rw [key] at h ⊢
  obtain ⟨code, f, h1, h2, h3⟩ := store_list X H cfg hl hd hdir hn hr h
  refine ⟨code, f, ?_, h2, h3⟩
  unfold JsRequest.code at h1
  cases hj : q.jsCode with
  | none => rw [hj] at h1; exact .inr ⟨rfl, h1⟩
  | some c => rw [hj] at h1; exact .inl h1

/-- **C99.** After a deletion that is answered with 200, of a file right in the hooks directory, the listing has no entry of that name, and the other entries are as they were. -/
theorem C99_delete (hl : ∀ l, (H.listing l).Perm l) (request : Str) (s : Site) {dir : Path} (hd : s.fs.resolve cfg.cwd cfg.hooksDir = some dir) (hdir : s.fs.isDir dir = true)
    (name : Str) (hq : jsonBody H.decodeDelete request = .ok name) (hn : PlainJsName name)
    (r : Reply) (hr : r.status = 200) (h : (route X H cfg c!"DELETE" c!"/delete-js" request s).1 = some r)
    (before : List FileInfo) (hb : listFunctions H cfg s.fs = .ok before) :
    ∃ after, listFunctions H cfg (route X H cfg c!"DELETE" c!"/delete-js" request s).2.fs = .ok after ∧ ∀ i, i ∈ after ↔ i ∈ before ∧ i.filename ≠ name := by
  have e : route X H cfg c!"DELETE" c!"/delete-js" request s = deleteJsRequest X H cfg request s := rfl
  rw [e] at h ⊢
  unfold deleteJsRequest at h ⊢
  rw [withToken_200 X h hr]
  rw [withToken_200 X h hr] at h
  unfold guarded at h ⊢
  rw [hq] at h ⊢
  simp only at h ⊢
  split at h
  · simp only [reply, Option.some.injEq] at h; rw [← h] at hr; simp at hr
  · rename_i h1
    rw [if_neg h1]
    rcases deleteJs_cases H cfg s.fs name with hs | ⟨p, hp, hs⟩
    · rw [hs] at h; simp only [reply, Option.some.injEq] at h; rw [← h] at hr; simp at hr
    · have := resolve_plain cfg s.fs hn hd hp
      subst this
      rw [hs]
      simp only [reply]
      have hd' : (s.fs.remove (dir ++ [name])).resolve cfg.cwd cfg.hooksDir = some dir := by rw [← hd]; exact resolve_dirs (a := s.fs.remove (dir ++ [name])) (b := s.fs) rfl _ _
      have hdir' : (s.fs.remove (dir ++ [name])).isDir dir = true := hdir
      refine ⟨_, list_eq H cfg _ hd' hdir', ?_⟩
      intro i
      rw [mem_list H cfg _ hl hd' hdir' (list_eq H cfg _ hd' hdir'), mem_list H cfg _ hl hd hdir hb]
      constructor
      · rintro ⟨bl, cd, hm, hj, rfl⟩
        unfold Fs.remove at hm
        rw [List.mem_filter] at hm
        refine ⟨⟨bl, cd, hm.1, hj, rfl⟩, ?_⟩
        intro e
        rw [filename_eq] at e
        have := intercalate_plain (plain_ne hn).1 hn.2 e
        subst this
        simp at hm
      · rintro ⟨⟨bl, cd, hm, hj, rfl⟩, hne⟩
        refine ⟨bl, cd, ?_, hj, rfl⟩
        unfold Fs.remove
        refine List.mem_filter.2 ⟨hm, ?_⟩
        rw [decide_eq_true_iff]
        intro e
        simp only [List.append_cancel_left_eq] at e
        subst e
        exact hne (by rw [filename_eq]; simp [List.intercalate])

/-! ### What is not listed -/

/-- A body decoder for uploads whose directories are listed as they are. -/
def Spec.inOrder (H : HttpExt) (name code : Str) : HttpExt := { uploading H name code with listing := id }

/-- **C99 fails** for a file named `.js`: the upload is answered with 200 and the file is in the hooks directory, but it is never listed, nor loaded. -/
theorem C99_nameless (X : Ext) (H : HttpExt) :
    (handle X (inOrder H c!".js" aFunction) open_ c!"POST /upload-js HTTP/1.1\r\n\r\n{}" site).1.map (·.status) = some 200 ∧
    (handle X (inOrder H c!".js" aFunction) open_ c!"POST /upload-js HTTP/1.1\r\n\r\n{}" site).2.fs.files = [([c!"srv", c!"hooks", c!".js"], aFunction)] ∧
    listFunctions (inOrder H c!".js" aFunction) open_ (handle X (inOrder H c!".js" aFunction) open_ c!"POST /upload-js HTTP/1.1\r\n\r\n{}" site).2.fs = .ok [] ∧
    loadJs (inOrder H c!".js" aFunction) open_ (handle X (inOrder H c!".js" aFunction) open_ c!"POST /upload-js HTTP/1.1\r\n\r\n{}" site).2.fs = [] := by
  have hf : (handle X (inOrder H c!".js" aFunction) open_ c!"POST /upload-js HTTP/1.1\r\n\r\n{}" site).2.fs =
      ⟨[[c!"srv"], [c!"srv", c!"hooks"], [c!"tmp"]], [([c!"srv", c!"hooks", c!".js"], aFunction)]⟩ := by kernel_rfl
  refine ⟨by kernel_rfl, by rw [hf], ?_, by rw [hf]; kernel_rfl⟩
  rw [hf, list_eq (dir := [c!"srv", c!"hooks"]) _ _ _ (by decide +kernel) (by decide +kernel)]
  have : below (inOrder H c!".js" aFunction) ⟨[[c!"srv"], [c!"srv", c!"hooks"], [c!"tmp"]], [([c!"srv", c!"hooks", c!".js"], aFunction)]⟩ [c!"srv", c!"hooks"] = [] := by
    kernel_rfl
  rw [this]
  simp

/-- Cases of the theorems: a directory with a function file in it, one in a directory below, and other files. -/
example (H : HttpExt) : ∃ entries, listFunctions { H with listing := id } open_
      ⟨[[c!"srv"], [c!"srv", c!"hooks"], [c!"srv", c!"hooks", c!"a"]],
        [([c!"srv", c!"hooks", c!"x.js"], aFunction), ([c!"srv", c!"hooks", c!"a", c!"y.js"], c!"bad"), ([c!"srv", c!"hooks", c!"notes.txt"], c!"n"), ([c!"srv", c!"z.js"], aFunction)]⟩ = .ok entries ∧
      entries.map (·.filename) = [c!"a/y.js", c!"x.js"] ∧ entries.map (fun i => i.function.map (·.name)) = [none, some c!"F"] ∧ entries.map (·.size) = [3, 48] := by
  refine ⟨_, list_eq (dir := [c!"srv", c!"hooks"]) _ _ _ (by decide +kernel) (by decide +kernel), ?_⟩
  have hb : below { H with listing := id } ⟨[[c!"srv"], [c!"srv", c!"hooks"], [c!"srv", c!"hooks", c!"a"]],
        [([c!"srv", c!"hooks", c!"x.js"], aFunction), ([c!"srv", c!"hooks", c!"a", c!"y.js"], c!"bad"), ([c!"srv", c!"hooks", c!"notes.txt"], c!"n"), ([c!"srv", c!"z.js"], aFunction)]⟩
      [c!"srv", c!"hooks"] = [([c!"srv", c!"hooks", c!"x.js"], aFunction), ([c!"srv", c!"hooks", c!"a", c!"y.js"], c!"bad")] := by kernel_rfl
  rw [hb]
  have h1 : Str.le c!"x.js" c!"a/y.js" = false := by decide +kernel
  have hm : ∀ a b : FileInfo, Str.le a.filename b.filename = false → [a, b].mergeSort (fun a b => Str.le a.filename b.filename) = [b, a] := by
    intro a b h
    simp [List.mergeSort, List.MergeSort.Internal.splitInTwo, h]
  rw [List.map_cons, List.map_cons, List.map_nil, hm _ _ h1]
  exact ⟨by kernel_rfl, by kernel_rfl, by kernel_rfl⟩

/-- A case of `C99_upload`, and of `C99_reload` after it: the upload of `x.js` and the reload are answered with 200. -/
example (X : Ext) (H : HttpExt) : PlainJsName c!"x.js" ∧
    (route X (inOrder H c!"x.js" aFunction) open_ c!"POST" c!"/upload-js" c!"POST /upload-js HTTP/1.1\r\n\r\n{}" site).1.map (·.status) = some 200 := by
  refine ⟨⟨⟨c!"x", by decide, rfl⟩, by decide⟩, by kernel_rfl⟩

/-- A case of `C99_delete`. -/
example (X : Ext) (H : HttpExt) :
    (route X { H with decodeDelete := fun _ => .ok c!"x.js", ioError := fun _ => false } open_ c!"DELETE" c!"/delete-js" c!"DELETE /delete-js HTTP/1.1\r\n\r\n{}"
      { site with fs := ⟨[[c!"srv"], [c!"srv", c!"hooks"]], [([c!"srv", c!"hooks", c!"x.js"], aFunction)]⟩ }).1.map (·.status) = some 200 := by kernel_rfl

end HttpList
