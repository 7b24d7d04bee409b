import Verif.Props.FileStore
import Verif.Props.JsFile
import Verif.Props.HttpWire
import Verif.Props.Lambda
/-! C132: a function that is uploaded and loaded is the one that evaluations call, from the file sent to the bytes that come back. -/

open Http _root_.Spec Http.Spec HttpList HttpJsBody.Spec FileStore.Spec JsFile.Spec JsonText JsonText.Spec HttpWire.Spec

namespace Deploy

namespace Spec

/-- The file, below the directory, defines the function. -/
structure Holds (dir : Path) (fs : Fs) (path : Path) (f : JsFunction) : Prop where
  below : dir <+: path
  js : ∃ above stem, path = above ++ [stem ++ c!".js"] ∧ stem ≠ []
  file : (path, f.code) ∈ fs.files
  defines : ∃ ls, (∀ l ∈ ls, '\n' ∉ l) ∧ c!"\n".intercalate ls = f.code ∧ Declares ls f

end Spec

open Deploy.Spec

theorem isJs_iff (p : Path) : isJs p = true ↔ ∃ above stem, p = above ++ [stem ++ c!".js"] ∧ stem ≠ [] := by
  unfold isJs
  rcases List.eq_nil_or_concat p with rfl | ⟨above, n, rfl⟩
  · simp
  · rw [List.concat_eq_append, List.getLast?_concat]
    simp only [Bool.and_eq_true, decide_eq_true_eq, FileStore.endsWith_js]
    constructor
    · rintro ⟨⟨stem, rfl⟩, h⟩
      exact ⟨above, stem, rfl, by rintro rfl; simp at h⟩
    · rintro ⟨a, stem, h, hne⟩
      obtain ⟨rfl, h2⟩ := List.append_inj' h rfl
      cases h2
      exact ⟨⟨stem, rfl⟩, by have := List.length_pos_iff.2 hne; simp; omega⟩

theorem defines_iff (f : JsFunction) : (∃ ls, (∀ l ∈ ls, '\n' ∉ l) ∧ c!"\n".intercalate ls = f.code ∧ Declares ls f) ↔ parseJs f.code = .ok f := by
  constructor
  · rintro ⟨ls, h1, h2, h3⟩
    have := (JsFile.C131_defines ls h1 f).2 ⟨h3, h2.symm⟩
    rwa [h2] at this
  · intro h
    obtain ⟨ls, h1, h2⟩ := JsFile.C131_lines f.code
    rw [← h2] at h
    obtain ⟨h3, h4⟩ := (JsFile.C131_defines ls h1 f).1 h
    exact ⟨ls, h1, h2, h3⟩

theorem parse_code {code : Str} {f : JsFunction} (h : parseJs code = .ok f) : f.code = code := by
  obtain ⟨ls, h1, rfl⟩ := JsFile.C131_lines code
  exact ((JsFile.C131_defines ls h1 f).1 h).2

theorem load_iff (H : HttpExt) (hl : ∀ fs f, f ∈ H.listing fs ↔ f ∈ fs) (cfg : Config) (dir : Path) (fs : Fs) (hd : fs.resolve cfg.cwd cfg.hooksDir = some dir) (f : JsFunction) :
    f ∈ loadJs H cfg fs ↔ ∃ path, Holds dir fs path f := by
  unfold loadJs
  rw [hd]
  simp only [List.mem_filterMap, List.mem_filter, Bool.and_eq_true, List.isPrefixOf_iff_prefix, hl]
  constructor
  · rintro ⟨⟨path, code⟩, ⟨h1, h2, h3⟩, h4⟩
    cases hp : parseJs code with
    | error e => rw [hp] at h4; cases h4
    | ok g =>
      rw [hp] at h4
      cases h4
      have := parse_code hp
      subst this
      exact ⟨path, h2, (isJs_iff path).1 h3, h1, (defines_iff _).2 hp⟩
  · rintro ⟨path, h1, h2, h3, h4⟩
    refine ⟨(path, f.code), ⟨h3, h1, (isJs_iff path).2 h2⟩, ?_⟩
    rw [(defines_iff f).1 h4]

theorem register_reg {X : Ext} {r r' : Registry} {f : CustomFn} (h : r.register X f = .ok r') (n : Str) : r' n = if n = X.upper f.name then some f else r n := by
  unfold Registry.register at h
  simp only at h
  split at h
  · exact absurd h (by simp [fail])
  · split at h
    · exact absurd h (by simp [fail])
    · simp only [Except.ok.injEq] at h
      rw [← h]

theorem registerAll_reg (X : Ext) (H : HttpExt) (n : Str) : ∀ (fs : List JsFunction) (r r' : Registry), registerAll X H r fs = (r', true) →
    (∀ g : CustomFn, r n = some g ∨ (∃ f ∈ fs, X.upper f.name = n) → (∀ f ∈ fs, X.upper f.name = n → f.custom H = g) → r' n = some g) ∧
    ((∀ f ∈ fs, X.upper f.name ≠ n) → r' n = r n)
  | [], r, r', h => by
    cases h
    exact ⟨fun g hg _ => hg.elim id (by simp), fun _ => rfl⟩
  | f :: fs, r, r', h => by
    unfold registerAll at h
    cases hr : r.register X (f.custom H) with
    | error e => rw [hr] at h; cases h
    | ok r1 =>
      rw [hr] at h
      obtain ⟨h1, h2⟩ := registerAll_reg X H n fs r1 r' h
      have hreg := register_reg hr n
      refine ⟨fun g hg hall => h1 g ?_ fun f' hf' => hall f' (by simp [hf']), fun hno => ?_⟩
      · by_cases hn : n = X.upper f.name
        · rw [if_pos (show n = X.upper (f.custom H).name from hn)] at hreg
          exact .inl (by rw [hreg, hall f (by simp) hn.symm])
        · rw [if_neg (show ¬ n = X.upper (f.custom H).name from hn)] at hreg
          rcases hg with hg | ⟨f', hf', hn'⟩
          · exact .inl (by rw [hreg, hg])
          · rcases List.mem_cons.1 hf' with rfl | hf'
            · exact absurd hn'.symm hn
            · exact .inr ⟨f', hf', hn'⟩
      · rw [h2 fun f' hf' => hno f' (by simp [hf']), hreg, if_neg (show ¬ n = X.upper (f.custom H).name from fun h => hno f (by simp) h.symm)]

/-- **C132.** After a reload that is answered with 200, a name that the files below the hooks directory give to one function belongs to that function, and every other name that no file gives to a
function belongs to what it belonged to before. -/
theorem C132_reload (X : Ext) (H : HttpExt) (hl : ∀ fs f, f ∈ H.listing fs ↔ f ∈ fs) (cfg : Config) (dir : Path) (s : Site) (hr : Ready cfg dir s.fs)
    {query : Option Str} {version rest : Str} (line : Line c!"POST" c!"/reload-hooks" query version)
    (hp : passes X (requestText c!"POST" c!"/reload-hooks" query version rest) cfg.adminToken = .ok true)
    (h200 : (handle X H cfg (requestText c!"POST" c!"/reload-hooks" query version rest) s).1.map (·.status) = some 200) :
    let s' := (handle X H cfg (requestText c!"POST" c!"/reload-hooks" query version rest) s).2
    s'.fs = s.fs ∧ s'.cache = s.cache ∧ s'.counter = s.counter ∧
    (∀ path f, Holds dir s.fs path f → (∀ path' f', Holds dir s.fs path' f' → X.upper f'.name = X.upper f.name → f' = f) →
      s'.reg (X.upper f.name) = some ⟨f.name, f.minArgs, f.maxArgs, H.runJs f.code⟩) ∧
    (∀ n, (∀ path f, Holds dir s.fs path f → X.upper f.name ≠ n) → s'.reg n = s.reg n) := by
  have e : ∀ r, route X H cfg c!"POST" c!"/reload-hooks" r s = reloadHooks X H cfg r s := fun _ => rfl
  rw [handle_request X H cfg s line rest, e] at h200 ⊢
  unfold reloadHooks at h200 ⊢
  rw [withToken_pass X _ _ s _ hp, if_pos (FileStore.ready_hooks hr)] at h200 ⊢
  rw [if_pos (by unfold hooksReadable; rw [hr.found]; exact hr.isDir)] at h200 ⊢
  cases ha : registerAll X H s.reg (loadJs H cfg s.fs) with
  | mk reg b =>
    rw [ha] at h200
    cases b with
    | false => simp [reply] at h200
    | true =>
      refine ⟨rfl, rfl, rfl, fun path f hf hone => ?_, fun n hn => ?_⟩
      · refine (registerAll_reg X H _ _ _ _ ha).1 _ (.inr ⟨f, (load_iff H hl cfg dir s.fs hr.found f).2 ⟨path, hf⟩, rfl⟩) fun f' hf' hname => ?_
        obtain ⟨path', hf'⟩ := (load_iff H hl cfg dir s.fs hr.found f').1 hf'
        rw [hone path' f' hf' hname]
        rfl
      · refine (registerAll_reg X H n _ _ _ ha).2 fun f hf => ?_
        obtain ⟨path, hf⟩ := (load_iff H hl cfg dir s.fs hr.found f).1 hf
        exact hn path f hf

/-- Registering a list of functions does the same to every registry: it gives some names to functions, whatever they belonged to. -/
theorem registerAll_same (X : Ext) (H : HttpExt) : ∀ fs : List JsFunction, ∃ (given : Str → Option CustomFn) (b : Bool),
    ∀ r : Registry, registerAll X H r fs = (fun n => (given n).or (r n), b)
  | [] => ⟨fun _ => none, true, fun r => rfl⟩
  | f :: fs => by
    obtain ⟨given, b, ih⟩ := registerAll_same X H fs
    by_cases h1 : (X.upper (f.custom H).name).isEmpty
    · refine ⟨fun _ => none, false, fun r => ?_⟩
      simp only [registerAll, Registry.register, h1, if_true, fail, Option.none_or]
    · by_cases h2 : (f.custom H).minArgs > (f.custom H).maxArgs.getD Registry.usizeMax
      · refine ⟨fun _ => none, false, fun r => ?_⟩
        simp only [registerAll, Registry.register, h1, h2, if_true, fail, Option.none_or]
        rfl
      · refine ⟨fun n => (given n).or (if n = X.upper (f.custom H).name then some (f.custom H) else none), b, fun r => ?_⟩
        simp only [registerAll, Registry.register, h1, h2]
        refine (ih _).trans ?_
        congr 1
        funext n
        by_cases hn : n = X.upper (f.custom H).name
        · simp only [hn, if_true]; cases given (X.upper (f.custom H).name) <;> rfl
        · simp only [if_neg hn, Option.or_none]

/-- **C132.** Reloading again when no file has changed changes nothing and is answered the same way, whether the first reload succeeded, stopped at a function that could not be
registered, or was refused. (Directories are taken to be listed in the same order both times, which matters if two files have functions of one name.) -/
theorem C132_reload_twice (X : Ext) (H : HttpExt) (cfg : Config) (dir : Path) (s : Site) (hr : Ready cfg dir s.fs)
    {query : Option Str} {version rest : Str} (line : Line c!"POST" c!"/reload-hooks" query version) :
    let reload := handle X H cfg (requestText c!"POST" c!"/reload-hooks" query version rest)
    reload (reload s).2 = reload s := by
  have e : ∀ r s, route X H cfg c!"POST" c!"/reload-hooks" r s = reloadHooks X H cfg r s := fun _ _ => rfl
  obtain ⟨given, b, hall⟩ := registerAll_same X H (loadJs H cfg s.fs)
  intro reload
  simp only [reload]
  rw [handle_request X H cfg s line rest, e]
  rw [handle_request X H cfg _ line rest, e]
  generalize requestText c!"POST" c!"/reload-hooks" query version rest = r
  cases hp : passes X r cfg.adminToken with
  | error err => cases err <;> simp only [reloadHooks, withToken, hp, guarded, reply]
  | ok ok =>
    cases ok
    · simp only [reloadHooks, withToken, hp, guarded, reply, Bool.false_eq_true, if_false]
    · have hk : ∀ s' : Site, s'.fs = s.fs → reloadHooks X H cfg r s' = reply { s' with reg := fun n => (given n).or (s'.reg n) } (if b then 200 else 500) := by
        intro s' hfs
        unfold reloadHooks
        rw [withToken_pass _ _ _ _ _ hp, hfs, if_pos (FileStore.ready_hooks hr), if_pos (by unfold hooksReadable; rw [hr.found]; exact hr.isDir), hall s'.reg]
        cases b <;> rfl
      rw [hk s rfl]
      simp only [reply]
      refine (hk { s with reg := fun n => (given n).or (s.reg n) } rfl).trans ?_
      simp only [reply]
      congr 2
      funext n
      cases given n <;> rfl

/-- A call of a registered function. -/
theorem worth_call (X : Ext) (reg : Registry) (f : CustomFn) (e nm : Str) (es : List Expr) (vs : List Value) (env : Env) (h1 : Str.contains e c!";" = false) (h2 : Str.contains e c!":=" = false)
    (he : Lib.parse e = .ok (.call nm es)) (hn : nm ∉ [c!"__TERNARY__", c!"__CONST_TRUE__", c!"__CONST_FALSE__"]) (hf : reg (X.upper nm) = some f)
    (hargs : Args X (some reg) env es vs) (hin : InArity f vs.length) : FrontEnds.Spec.worth X reg e env = f.run vs := by
  have hf' : reg.get X nm = some f := hf
  unfold FrontEnds.Spec.worth
  rw [h1, h2, if_neg (by simp)]
  unfold Lib.evaluateWithCustom
  rw [he]
  simp only [bind, Except.bind]
  unfold evalCustom
  rw [call_custom X reg f nm es env hn hf', evalArgs_of X _ env es vs hargs]
  simp only [bind, Except.bind, Registry.execute, hf']
  rw [if_neg (by have := hin.1; omega)]
  cases hm : f.maxArgs with
  | none => rfl
  | some m => simp only; rw [if_neg (by have := hin.2 m hm; omega)]

theorem serve_append (X : Ext) (H : HttpExt) (cfg : Config) : ∀ (a b : List Str) (s : Site), serve X H cfg (a ++ b) s = serve X H cfg b (serve X H cfg a s)
  | [], _, _ => rfl
  | _ :: a, b, _ => serve_append X H cfg a b _

theorem runs_split {st st' : Store} {a b : List Event} {ns : List (Option Nat)} (h : Runs st (a ++ b) ns st') : ∃ st1 n1 n2, Runs st a n1 st1 ∧ Runs st1 b n2 st' := by
  induction a generalizing st ns with
  | nil => exact ⟨st, [], ns, .nil, h⟩
  | cons e a ih =>
    cases h with
    | cons h1 h2 =>
      obtain ⟨st1, n1, n2, h3, h4⟩ := ih h2
      exact ⟨st1, _, n2, .cons h1 h3, h4⟩

theorem ready_serve (X : Ext) (hX : LowersWords X) (H : HttpExt) (tree : Str → Option Json) (hH : Reads H tree) (hio : ∀ f, H.ioError f = false) (cfg : Config) (dir : Path)
    (es : List Event) (rs : List Str) (his : List.Forall₂ (Is X cfg tree) es rs)
    (hname : ∀ e ∈ es, ∀ name, e.name = some name → '/' ∉ name)
    (hp : ∀ e ∈ es, ∀ code, e.code = some code → ∀ p, validateJs X H code ≠ .error (.panic p)) (s : Site) (hr : Ready cfg dir s.fs) :
    Ready cfg dir (serve X H cfg rs s).fs := by
  induction his generalizing s with
  | nil => exact hr
  | @cons e r es rs h _ ih =>
    obtain ⟨-, h2⟩ := FileStore.step X hX H tree hH hio cfg dir s hr e r h (hname e (by simp)) (hp e (by simp))
    exact ih (fun e he => hname e (by simp [he])) (fun e he => hp e (by simp [he])) _ (FileStore.ready_dirs hr h2)

/-- **C132.** A history of requests in which a function is uploaded, by JSON or as a form, and its file not touched again leaves the file there, with the function in it. -/
theorem C132_uploaded (X : Ext) (hX : LowersWords X) (H : HttpExt) (tree : Str → Option Json) (hH : Reads H tree) (hio : ∀ f, H.ioError f = false) (cfg : Config) (dir : Path)
    (es1 es2 : List Event) (rs : List Str) (stem : Str) (f : JsFunction) (his : List.Forall₂ (Is X cfg tree) (es1 ++ .call (.upload (stem ++ c!".js") (some f.code)) :: es2) rs)
    (hname : ∀ e ∈ es1 ++ .call (.upload (stem ++ c!".js") (some f.code)) :: es2, ∀ name, e.name = some name → '/' ∉ name)
    (hp : ∀ e ∈ es1 ++ .call (.upload (stem ++ c!".js") (some f.code)) :: es2, ∀ code, e.code = some code → ∀ p, validateJs X H code ≠ .error (.panic p)) (s : Site) (hr : Ready cfg dir s.fs)
    (hstem : stem ≠ []) (hf : ∃ ls, (∀ l ∈ ls, '\n' ∉ l) ∧ c!"\n".intercalate ls = f.code ∧ Declares ls f)
    (hlater : ∀ e ∈ es2, ∀ c, e ≠ .call (.upload (stem ++ c!".js") c) ∧ e ≠ .call (.update (stem ++ c!".js") c) ∧ e ≠ .call (.delete (stem ++ c!".js"))) :
    Holds dir (serve X H cfg rs s).fs (dir ++ [stem ++ c!".js"]) f := by
  have hfile : FileName (stem ++ c!".js") := ⟨⟨stem, rfl⟩, hname _ (List.mem_append_right _ (List.mem_cons_self)) _ rfl⟩
  obtain ⟨st1, n1, n2, -, h2⟩ := runs_split (FileStore.C119_history X hX H tree hH hio cfg dir _ rs his hname hp s hr)
  have hread : storeOf dir (serve X H cfg rs s).fs (stem ++ c!".js") = some f.code := by
    cases h2 with
    | cons h3 h4 =>
      obtain ⟨rfl, -⟩ := FileStore.C119_determined h3 (.uploaded hfile ⟨f, (defines_iff f).1 hf⟩)
      exact FileStore.C119_last h4 hlater
  rw [FileStore.storeOf_file hfile] at hread
  refine ⟨⟨_, rfl⟩, ⟨dir, stem, rfl, hstem⟩, ?_, hf⟩
  unfold Fs.read at hread
  simp only [Option.map_eq_some_iff] at hread
  obtain ⟨⟨p, c⟩, h5, rfl⟩ := hread
  have h6 := List.find?_some h5
  simp only [decide_eq_true_eq] at h6
  subst h6
  exact List.mem_of_find?_eq_some h5

/-- **C132.** From the file to the answer. A history of requests in which a function is uploaded and its file not touched again, a reload that is answered with 200, and the stored results cleared: then
a call of the function, in any spelling of its name that is the same in capitals, asked for by a JSON text whose bytes arrive in whatever pieces, is answered with what the uploaded code gives for the
values of the arguments, if no other file defines a function of that name and the number of arguments is one of those the comments allow. That holds for the names of built-in functions as well. -/
theorem C132_deploy (X : Ext) (N : Floats) (hu : Uses X N) (hX : LowersWords X) (H : HttpExt) (hlist : ∀ fs f, f ∈ H.listing fs ↔ f ∈ fs) (hio : ∀ f, H.ioError f = false)
    (order : Wire.Order) (ho : Wire.Spec.Shuffles order) (why : Str → Str) (W : HttpReply.World) (cfg : Config) (report : Health.Report) (dir : Path) (s0 : Site) (hr : Ready cfg dir s0.fs)
    -- the history, with the upload
    (es1 es2 : List Event) (rs : List Str) (stem : Str) (f : JsFunction)
    (his : List.Forall₂ (Is X cfg (tree N)) (es1 ++ .call (.upload (stem ++ c!".js") (some f.code)) :: es2) rs)
    (hname : ∀ e ∈ es1 ++ .call (.upload (stem ++ c!".js") (some f.code)) :: es2, ∀ name, e.name = some name → '/' ∉ name)
    (hnp : ∀ e ∈ es1 ++ .call (.upload (stem ++ c!".js") (some f.code)) :: es2, ∀ code, e.code = some code → ∀ p, validateJs X (HttpWire.reading N order why H) code ≠ .error (.panic p))
    (hstem : stem ≠ []) (hf : ∃ ls, (∀ l ∈ ls, '\n' ∉ l) ∧ c!"\n".intercalate ls = f.code ∧ Declares ls f)
    (hlater : ∀ e ∈ es2, ∀ c, e ≠ .call (.upload (stem ++ c!".js") c) ∧ e ≠ .call (.update (stem ++ c!".js") c) ∧ e ≠ .call (.delete (stem ++ c!".js")))
    (halone : ∀ path f', Holds dir (serve X (HttpWire.reading N order why H) cfg rs s0).fs path f' → X.upper f'.name = X.upper f.name → f' = f)
    -- the reload and the clearing
    (q1 q2 : Option Str) (v1 v2 rest1 rest2 : Str) (line1 : Line c!"POST" c!"/reload-hooks" q1 v1) (line2 : Line c!"DELETE" c!"/cache" q2 v2)
    (hp1 : passes X (requestText c!"POST" c!"/reload-hooks" q1 v1 rest1) cfg.adminToken = .ok true)
    (hp2 : passes X (requestText c!"DELETE" c!"/cache" q2 v2 rest2) cfg.adminToken = .ok true)
    (h200 : (handle X (HttpWire.reading N order why H) cfg (requestText c!"POST" c!"/reload-hooks" q1 v1 rest1) (serve X (HttpWire.reading N order why H) cfg rs s0)).1.map (·.status) = some 200)
    -- the call
    (want : HttpRead.Schedule) (closes : Bool) (before after : List Str) (name ds body : Str)
    (hl : ∀ l ∈ before ++ (name ++ c!": " ++ ds) :: after, HttpRead.Spec.HeaderLine l) (hb : ∀ l ∈ before, ¬ HttpRead.Spec.NamesLength l)
    (hn : name.map Str.asciiLowC = c!"content-length") (hne : ds ≠ []) (hd : ∀ c ∈ ds, Str.asciiDigit c = true) (hbody : HttpRead.Spec.decimal ds = Str.byteLen body)
    (hs : Str.byteLen (HttpRead.Spec.requestText (c!"POST /eval HTTP/1.1" :: (before ++ (name ++ c!": " ++ ds) :: after)) body) ≤ HttpRead.Spec.limit)
    (hp : passes X (HttpRead.Spec.requestText (c!"POST /eval HTTP/1.1" :: (before ++ (name ++ c!": " ++ ds) :: after)) body) cfg.authToken = .ok true)
    (hms : W.ms.isFinite = true → FloatBack N W.ms)
    (ms : List (Str × Json)) (htext : Text N 127 (.obj ms) body) (e : Str) (as : List (Str × Json)) (wrapped : Bool) (ha : Asks ms e as wrapped)
    (hk : ∀ m ∈ as, _root_.Spec.CleanName X m.1 m.1) (hm : FrontEnds.Spec.NotMentioned c!"arguments" e)
    (nm : Str) (args : List Expr) (he : Lib.parse e = .ok (.call nm args)) (hsemi : Str.contains e c!";" = false) (hassign : Str.contains e c!":=" = false)
    (hnm : X.upper nm = X.upper f.name) (hin : nm ∉ [c!"__TERNARY__", c!"__CONST_TRUE__", c!"__CONST_FALSE__"]) (vs : List Value) :
    let s := serve X (HttpWire.reading N order why H) cfg (rs ++ [requestText c!"POST" c!"/reload-hooks" q1 v1 rest1, requestText c!"DELETE" c!"/cache" q2 v2 rest2]) s0
    s.counter < 2 ^ 64 → Args X (some s.reg) (FrontEnds.Spec.members X as) args vs → f.minArgs ≤ vs.length → (∀ m, f.maxArgs = some m → vs.length ≤ m) →
    Tells X N W s.counter wrapped (H.runJs f.code vs) (HttpReply.connection X (HttpWire.reading N order why H) W cfg report want
      ⟨HttpRead.Spec.bytesOf (HttpRead.Spec.requestText (c!"POST /eval HTTP/1.1" :: (before ++ (name ++ c!": " ++ ds) :: after)) body), closes⟩ s).1 := by
  intro s hid hargs hmin hmax
  have hold := C132_uploaded X hX (HttpWire.reading N order why H) (tree N) (HttpWire.C129_reads N order why H).2.1 hio cfg dir es1 es2 rs stem f his hname hnp s0 hr hstem hf hlater
  have hr1 := ready_serve X hX (HttpWire.reading N order why H) (tree N) (HttpWire.C129_reads N order why H).2.1 hio cfg dir _ rs his hname hnp s0 hr
  obtain ⟨-, -, -, hreg, -⟩ := C132_reload X (HttpWire.reading N order why H) hlist cfg dir _ hr1 line1 hp1 h200
  have hreg := hreg _ f hold halone
  obtain ⟨c, hclear, hempty⟩ := C110_clears X (HttpWire.reading N order why H) cfg
    (handle X (HttpWire.reading N order why H) cfg (requestText c!"POST" c!"/reload-hooks" q1 v1 rest1) (serve X (HttpWire.reading N order why H) cfg rs s0)).2 line2 rest2 hp2
  have hsite : s = { (handle X (HttpWire.reading N order why H) cfg (requestText c!"POST" c!"/reload-hooks" q1 v1 rest1) (serve X (HttpWire.reading N order why H) cfg rs s0)).2 with cache := c } := by
    show serve X _ cfg (rs ++ _) s0 = _
    rw [serve_append]
    simp only [serve]
    rw [hclear]
  have hcall : FrontEnds.Spec.worth X s.reg e (FrontEnds.Spec.members X as) = H.runJs f.code vs :=
    worth_call X s.reg ⟨f.name, f.minArgs, f.maxArgs, H.runJs f.code⟩ e nm args vs _ hsemi hassign he hin (by rw [hsite, hnm]; exact hreg) hargs ⟨hmin, hmax⟩
  rw [← hcall]
  exact HttpWire.C129_post X N hu H order ho why W cfg report want closes s (by rw [hsite]; exact hempty) hid hms before after name ds body hl hb hn hne hd hbody hs hp ms htext e as wrapped ha hk hm

/-! ### A deployment -/

/-- The world of the sample. -/
def sampleExt : Ext := { halvesExt with lowerUni := fun s => s.map Str.asciiLowC }

theorem sampleExt_uses : Uses sampleExt halves := { print := halvesExt_uses.print, parse := halvesExt_uses.parse }

theorem sampleExt_lowers : LowersWords sampleExt := by
  intro s w _
  unfold Ext.lower
  split <;> rfl

/-- A function that takes the name of a built-in one. -/
def sampleCode : Str := c!"// @name: Sum\n// @min_args: 2\nfunction execute(a) { return a.reverse(); }"

def sampleFunction : JsFunction := ⟨c!"Sum", 2, none, none, sampleCode⟩

/-- A server without reading errors; JavaScript turns the arguments around. -/
def sampleServer (H : HttpExt) : HttpExt := { H with listing := id, ioError := fun _ => false, runJs := fun _ vs => .ok (.arr vs.reverse) }

/-- The body of the upload. -/
def sampleUpload : Str := c!"{\"filename\": \"sum.js\", \"js_code\": \"// @name: Sum\\n// @min_args: 2\\nfunction execute(a) { return a.reverse(); }\"}"

/-- The upload and a look at the health page. -/
def sampleRequests : List Str := [
  requestText c!"POST" c!"/upload-js" none c!"HTTP/1.1" (withJson [] [] sampleUpload),
  requestText c!"GET" c!"/health" none c!"HTTP/1.1" c!"\r\n"]

theorem sampleRequests_are : List.Forall₂ (Is sampleExt open_ (tree halves)) ([] ++ .call (.upload (c!"sum" ++ c!".js") (some sampleFunction.code)) :: [.elsewhere]) sampleRequests := by
  refine .cons ?_ (.cons ?_ .nil)
  · refine .call (c := .upload c!"sum.js" (some sampleFunction.code)) (FileStore.aLine ⟨⟨by decide, by decide⟩, ⟨by decide, by decide⟩, by decide⟩) (.json (by simp) (by simp)
      (show tree halves sampleUpload = some (.obj [(c!"filename", .str c!"sum.js"), (c!"js_code", .str sampleCode)]) by kernel_rfl) ?_) rfl
    exact .members ⟨by unfold HttpJsBody.Spec.OnceOf; decide, rfl, some sampleCode, none, .inr ⟨_, rfl, rfl⟩, .inl ⟨.inl rfl, rfl⟩, .inl ⟨_, rfl, rfl⟩⟩
  · exact .elsewhere (FileStore.aLine ⟨⟨by decide, by decide⟩, ⟨by decide, by decide⟩, by decide⟩) (by decide)

/-- The body of the evaluation. -/
def sampleBody : Str := c!"{\"expression\": \"sum(true, 'a')\"}"

theorem sample_files (H : HttpExt) : (serve sampleExt (HttpWire.reading halves List.reverse (fun _ => []) (sampleServer H)) open_ sampleRequests site).fs.files =
    [([c!"srv", c!"hooks", c!"sum.js"], sampleCode)] := by kernel_rfl

/-- The function uploaded stands in for the built-in `SUM`. -/
example (H : HttpExt) (report : Health.Report) (want : HttpRead.Schedule) :
    ∃ m, (HttpReply.connection sampleExt (HttpWire.reading halves List.reverse (fun _ => []) (sampleServer H)) { HttpReply.Spec.someWorld with ms := .fin (1 / 2) } open_ report want
      ⟨HttpRead.Spec.bytesOf (HttpRead.Spec.requestText [c!"POST /eval HTTP/1.1", c!"Content-Length: 32"] sampleBody), false⟩
      (serve sampleExt (HttpWire.reading halves List.reverse (fun _ => []) (sampleServer H)) open_ (sampleRequests ++
        [requestText c!"POST" c!"/reload-hooks" none c!"HTTP/1.1" c!"\r\n", requestText c!"DELETE" c!"/cache" none c!"HTTP/1.1" c!"\r\n"]) site)).1 = some m ∧
    Answers halves (m.bytes sampleExt) 200 (.obj [(c!"success", .bool true), (c!"result", .arr [.str c!"a", .bool true]), (c!"error", .null),
      (c!"execution_time_ms", .num (.float (.fin (1 / 2)))), (c!"request_id", .num (.int 0))]) := by
  have hdef : parseJs sampleFunction.code = .ok sampleFunction := by kernel_rfl
  have hv : (validateJs sampleExt (HttpWire.reading halves List.reverse (fun _ => []) (sampleServer H)) sampleCode).toBool = true := by kernel_rfl
  have hcount : (serve sampleExt (HttpWire.reading halves List.reverse (fun _ => []) (sampleServer H)) open_ (sampleRequests ++
        [requestText c!"POST" c!"/reload-hooks" none c!"HTTP/1.1" c!"\r\n", requestText c!"DELETE" c!"/cache" none c!"HTTP/1.1" c!"\r\n"]) site).counter = 0 := by kernel_rfl
  have h := C132_deploy sampleExt halves sampleExt_uses sampleExt_lowers (sampleServer H) (fun _ _ => Iff.rfl) (fun _ => rfl) List.reverse (fun _ => List.reverse_perm _) (fun _ => [])
    { HttpReply.Spec.someWorld with ms := .fin (1 / 2) } open_ report [c!"srv", c!"hooks"] site FileStore.site_ready [] [.elsewhere] sampleRequests c!"sum" sampleFunction sampleRequests_are
    (by
      intro e he name hn
      simp only [List.nil_append, List.mem_cons, List.not_mem_nil, or_false] at he
      rcases he with rfl | rfl <;> simp only [Event.name, Option.some.injEq, reduceCtorEq] at hn
      subst hn
      decide)
    (by
      intro e he code hc p
      simp only [List.nil_append, List.mem_cons, List.not_mem_nil, or_false] at he
      rcases he with rfl | rfl <;> simp only [Event.code, Option.some.injEq, reduceCtorEq] at hc
      subst hc
      intro h
      rw [show sampleFunction.code = sampleCode from rfl] at h
      rw [h] at hv
      simp [Except.toBool] at hv)
    (by decide) ((defines_iff _).2 hdef) (by simp)
    (by
      intro path f' hf' _
      have hfile := hf'.file
      rw [sample_files, List.mem_singleton, Prod.mk.injEq] at hfile
      have hp := (defines_iff f').1 hf'.defines
      rw [hfile.2] at hp
      exact Except.ok.inj (hp.symm.trans hdef))
    none none c!"HTTP/1.1" c!"HTTP/1.1" c!"\r\n" c!"\r\n" (FileStore.aLine ⟨⟨by decide, by decide⟩, ⟨by decide, by decide⟩, by decide⟩)
    (FileStore.aLine ⟨⟨by decide, by decide⟩, ⟨by decide, by decide⟩, by decide⟩) rfl rfl (by kernel_rfl)
    want false [] [] c!"Content-Length" c!"32" sampleBody (by unfold HttpRead.Spec.HeaderLine; decide +kernel) (by simp) (by decide) (by decide) (by decide) (by decide +kernel) (by decide +kernel) (by kernel_rfl)
    (fun _ => half_back) [(c!"expression", .str c!"sum(true, 'a')")] ((tree_iff _ _ _).1 (by kernel_rfl)) c!"sum(true, 'a')" [] false
    { once := by unfold HttpBody.Spec.Once; decide +kernel
      expression := ⟨_, rfl, .whole _⟩
      arguments := .absent (.inl rfl)
      form := .absent (.inl rfl)
      unreported := .inl (.inl rfl) }
    (by simp)
    (by
      intro e he
      have : (Lib.parse c!"sum(true, 'a')").map _root_.Spec.vars = .ok [] := by kernel_rfl
      rw [he] at this
      rw [Except.ok.inj this]
      decide)
    c!"SUM" [.call c!"__CONST_TRUE__" [], .strLit c!"a"] (by kernel_rfl) (by decide) (by decide) (by decide) (by decide) [.bool true, .str c!"a"]
    (by rw [hcount]; decide) (.plain (by simp) (by kernel_rfl) (.plain (by simp) (by kernel_rfl) .nil)) (by decide) (by simp [sampleFunction])
  rw [hcount] at h
  exact h.1 (.arr [.str c!"a", .bool true]) rfl (by simp [HttpWire.Spec.Sendable, HttpWire.Spec.SendableAll]) (fun t ht => by cases ht) (by decide +kernel)

/-- A site whose hooks directory holds the function, which the server has not read yet. -/
def unread : Site := { site with fs := { site.fs with files := [([c!"srv", c!"hooks", c!"sum.js"], sampleCode)] } }

theorem unread_ready : Ready open_ [c!"srv", c!"hooks"] unread.fs := {
  found := by decide +kernel
  isDir := by decide +kernel
  noDir := by
    rintro name ⟨⟨stem, rfl⟩, h⟩
    simp [Fs.isDir, site, unread] }

/-- Reading it once makes a difference, reading it again does not. -/
example (H : HttpExt) :
    let reload := handle sampleExt (sampleServer H) open_ (requestText c!"POST" c!"/reload-hooks" none c!"HTTP/1.1" c!"\r\n")
    (unread.reg c!"SUM").isSome = false ∧ ((reload unread).2.reg c!"SUM").isSome = true ∧ (reload unread).1.map (·.status) = some 200 ∧ reload (reload unread).2 = reload unread :=
  ⟨by kernel_rfl, by kernel_rfl, by kernel_rfl,
    C132_reload_twice _ _ _ _ _ unread_ready (FileStore.aLine ⟨⟨by decide, by decide⟩, ⟨by decide, by decide⟩, by decide⟩)⟩

end Deploy
