import Verif.Props.HttpReplies
/-! C126, continued: what the documents of the other routes say, messages as bytes, and requests that cannot be read. -/

namespace HttpReply
open Http HttpReply.Spec

theorem not_sent {s : Site} {n : Nat} {doc doc' : Json} (h : (send s n doc').1 = some ⟨200, .json doc⟩) (hn : n ≠ 200) : False := by
  cases h; exact hn rfl

theorem withToken_send {X : Ext} {request : Str} {token : Option Str} {t : Str} {s : Site} {k : Out} {doc : Json}
    (h : (withToken X request token t s k).1 = some ⟨200, .json doc⟩) : withToken X request token t s k = k := by
  unfold withToken guarded at h ⊢
  cases hp : passes X request token with
  | ok b =>
    rw [hp] at h
    cases b with
    | true => rfl
    | false => exact (not_sent h (by decide)).elim
  | error f =>
    rw [hp] at h
    cases f with
    | err m as p => exact (not_sent h (by decide)).elim
    | panic p => cases h

/-! ### Evaluation: the form of the result -/

/-- **C126.** The result of an evaluation that worked is sent in the form that was asked for: the value alone, or with its type and the time if `output_json` is true. The value is the one the evaluation
gives. -/
theorem C126_form (X : Ext) (H : HttpExt) (W : World) (cfg : Config) (report : Health.Report) (request : Str) (s : Site) (doc : Json) (q : EvalRequest)
    (hq : jsonBody H.decodeEval request = .ok q) (h : (route X H W cfg report c!"POST" c!"/eval" request s).1 = some ⟨200, .json doc⟩) :
    ∃ v ctx s', evaluateCached X { s with counter := s.counter + 1 } ⟨q.expression, varsOf X q.arguments, wantsVariables q.includeVariables⟩ = (.ok (v, ctx), s') ∧
      (q.outputJson ≠ some true → member doc c!"result" = some (simpleOutput X v)) ∧
      (q.outputJson = some true → member doc c!"result" =
        some (.obj [(c!"execution_time", .str (W.msText ++ c!" ms")), (c!"result", structuredValue X v), (c!"type", .str (Tcp.typeName v))])) := by
  have e : route X H W cfg report c!"POST" c!"/eval" request s = evalPost X H W cfg request s := rfl
  rw [e] at h
  unfold evalPost at h
  rw [withToken_send h] at h
  unfold guarded at h
  rw [hq] at h
  simp only [sendEval] at h
  cases hc : evaluateCached X { s with counter := s.counter + 1 } ⟨q.expression, varsOf X q.arguments, wantsVariables q.includeVariables⟩ with
  | mk r s' =>
    rw [hc] at h
    cases r with
    | error f => cases f with
      | err m as p => exact (not_sent h (by decide)).elim
      | panic p => cases h
    | ok p =>
      obtain ⟨v, ctx⟩ := p
      cases h
      refine ⟨v, ctx, s', rfl, ?_, ?_⟩
      · intro ho
        rw [evalDoc_result]
        cases hj : q.outputJson with
        | none => rfl
        | some b => cases b with
          | false => rfl
          | true => exact absurd hj ho
      · intro ho
        rw [evalDoc_result, ho]
        rfl

/-! ### Uploads and updates -/

/-- **C126.** An upload or update that is answered with 200: the code that was sent defines a function, the document has its name, says that the example was passed if and only if there is none or
running it gives what it says, and the code is now in the file system. -/
theorem C126_store (X : Ext) (H : HttpExt) (W : World) (cfg : Config) (report : Health.Report) (method path request : Str) (s : Site) (doc : Json)
    (hm : (method, path) = (c!"POST", c!"/upload-js") ∨ (method, path) = (c!"PUT", c!"/update-js"))
    (h : (route X H W cfg report method path request s).1 = some ⟨200, .json doc⟩) :
    ∃ q code f b p, jsRequest X H request = .ok q ∧ (q.jsCode = some code ∨ q.jsCode = none ∧ q.fileContent = some code) ∧ parseJs code = .ok f ∧
      member doc c!"function_name" = some (.str f.name) ∧
      (member doc c!"validation_results").bind (fun r => member r c!"example_test_passed") = some (.bool b) ∧
      (b = true ↔ ∀ e, f.example_ = some e → exampleHolds X H f e = .ok true) ∧
      (p, code) ∈ (route X H W cfg report method path request s).2.fs.files ∧
      (_root_.Spec.withHooks cfg s.fs).resolve cfg.cwd (joinPath cfg.hooksDir q.filename) = some p := by
  have key : ∃ q w, jsRequest X H request = .ok q ∧ route X H W cfg report method path request s = storeJs X H W w cfg s q.filename q.code := by
    rcases hm with hm | hm <;> simp only [Prod.mk.injEq] at hm <;> obtain ⟨rfl, rfl⟩ := hm
    · have e : route X H W cfg report c!"POST" c!"/upload-js" request s = uploadJs X H W cfg request s := rfl
      rw [e] at h ⊢
      unfold uploadJs at h ⊢
      rw [withToken_send h]
      rw [withToken_send h] at h
      unfold guarded at h ⊢
      cases hq : jsRequest X H request with
      | error f =>
        rw [hq] at h
        cases f with
        | err m as p => exact (not_sent h (by decide)).elim
        | panic p => cases h
      | ok q =>
        rw [hq] at h
        simp only at h ⊢
        refine ⟨q, uploading, rfl, ?_⟩
        by_cases hh : Str.endsWith q.filename c!".js" = true
        · rw [if_pos hh]
        · rw [if_neg hh] at h
          exact (not_sent h (by decide)).elim
    · have e : route X H W cfg report c!"PUT" c!"/update-js" request s = updateJs X H W cfg request s := rfl
      rw [e] at h ⊢
      unfold updateJs at h ⊢
      rw [withToken_send h]
      rw [withToken_send h] at h
      unfold guarded at h ⊢
      cases hq : jsRequest X H request with
      | error f =>
        rw [hq] at h
        cases f with
        | err m as p => exact (not_sent h (by decide)).elim
        | panic p => cases h
      | ok q =>
        rw [hq] at h
        simp only at h ⊢
        refine ⟨q, updating, rfl, ?_⟩
        by_cases h1 : (!Str.endsWith q.filename c!".js") = true
        · rw [if_pos h1] at h
          exact (not_sent h (by decide)).elim
        · rw [if_neg h1] at h ⊢
          by_cases h2 : (!s.fs.exists cfg.cwd (joinPath cfg.hooksDir q.filename)) = true
          · rw [if_pos h2] at h
            exact (not_sent h (by decide)).elim
          · rw [if_neg h2]
  obtain ⟨q, w, hq, hr⟩ := key
  rw [hr] at h ⊢
  unfold storeJs at h ⊢
  cases hc : q.code with
  | none => rw [hc] at h; exact (not_sent h (by decide)).elim
  | some code =>
    rw [hc] at h
    simp only [guarded] at h ⊢
    have hsame := validate_same X H code
    cases hv : validate X H code with
    | error f =>
      rw [hv] at h
      cases f with
      | err m as p => exact (not_sent h (by decide)).elim
      | panic p => cases h
    | ok fr =>
      obtain ⟨f, r⟩ := fr
      rw [hv] at h hsame
      simp only at h ⊢
      rcases saveJs_cases H cfg s.fs q.filename code with hs | ⟨p, hp, hs⟩
      · rw [hs] at h; exact (not_sent h (by decide)).elim
      · rw [hs] at h ⊢
        cases h
        have hpf : parseJs code = .ok f ∧ (r.passed = true ↔ ∀ e, f.example_ = some e → exampleHolds X H f e = .ok true) := by
          unfold validateJs at hsame
          cases hpj : parseJs code with
          | error g => rw [hpj] at hsame; cases g <;> cases hsame
          | ok g =>
            rw [hpj] at hsame
            simp only at hsame
            cases hex : g.example_ with
            | none =>
              rw [hex] at hsame
              simp only [Except.map, Except.ok.injEq, Prod.mk.injEq] at hsame
              obtain ⟨rfl, h2⟩ := hsame
              exact ⟨rfl, by rw [← h2, hex]; simp⟩
            | some e =>
              rw [hex] at hsame
              simp only at hsame
              cases hho : exampleHolds X H g e with
              | error k => rw [hho] at hsame; cases hsame
              | ok b =>
                rw [hho] at hsame
                simp only [bind, Except.bind, pure, Except.pure, Except.map, Except.ok.injEq, Prod.mk.injEq] at hsame
                obtain ⟨rfl, h2⟩ := hsame
                refine ⟨rfl, ?_⟩
                rw [← h2, hex]
                simp [hho]
        refine ⟨q, code, f, r.passed, p, hq, ?_, hpf.1, rfl, rfl, hpf.2, ?_, hp⟩
        · unfold JsRequest.code at hc
          cases hj : q.jsCode with
          | none => rw [hj] at hc; exact .inr ⟨rfl, hc⟩
          | some c => rw [hj] at hc; exact .inl hc
        · simp [send, Fs.write]

/-- **C126.** A function that fails its own example: the reply says `success: true`, in the message that it was validated, and `example_test_passed: false`. -/
theorem C126_failed_example_success (X : Ext) (H : HttpExt) (W : World) (report : Health.Report) (hrun : ∀ code args, H.runJs code args = .ok (.num (.fin 1))) :
    ∃ doc, (handle X (_root_.Spec.uploading H c!"x.js" _root_.Spec.wrongExample) W _root_.Spec.open_ report c!"POST /upload-js HTTP/1.1\r\n\r\n{}" _root_.Spec.site).1 = some ⟨200, .json doc⟩ ∧
      member doc c!"success" = some (.bool true) ∧ member doc c!"message" = some (.str c!"JavaScript function 'F' uploaded and validated successfully") ∧
      (member doc c!"validation_results").bind (fun r => member r c!"example_test_passed") = some (.bool false) := by
  obtain ⟨d1, d2, d3, run, d5, d6⟩ := H
  have : run = fun _ _ => .ok (.num (.fin 1)) := by funext c a; exact hrun c a
  subst this
  exact ⟨storeDoc true c!"JavaScript function 'F' uploaded and validated successfully" (some c!"F") (some ⟨false, none, some c!"Expected: 2, Got: 1"⟩) none,
    by kernel_rfl, rfl, rfl, rfl⟩

/-! ### The listing -/

namespace Spec

/-- A document describes a file: its name, its size, whether it is a function, and then its name and the numbers of arguments, otherwise why not. -/
structure Describes (i : FileInfo) (doc : Json) : Prop where
  filename : member doc c!"filename" = some (.str i.filename)
  size : member doc c!"file_size" = some (.num (.int i.size))
  valid : member doc c!"is_valid" = some (.bool i.function.isSome)
  function : ∀ f, i.function = some f → member doc c!"function_name" = some (.str f.name) ∧ member doc c!"min_args" = some (.num (.int f.minArgs)) ∧
    member doc c!"max_args" = some (match f.maxArgs with
      | some n => .num (.int n)
      | none => .null) ∧
    member doc c!"example" = some (match f.example_ with
      | some e => .str e
      | none => .null) ∧ member doc c!"validation_error" = some .null
  invalid : i.function = none → member doc c!"function_name" = some .null ∧ ∃ t, member doc c!"validation_error" = some (.str t)

end Spec

theorem entryOf_info (W : World) (dir : Path) (f : Path × Str) : (entryOf W dir f).info = fileInfo dir f := by
  unfold entryOf
  cases parseJs f.2 <;> rfl

theorem entryOf_describes (W : World) (dir : Path) (f : Path × Str) : Describes (fileInfo dir f) (entryOf W dir f).doc := by
  unfold entryOf
  cases h : parseJs f.2 with
  | ok g =>
    have hi : (fileInfo dir f).function = some g := by simp [fileInfo, h, Except.toOption]
    refine ⟨rfl, rfl, rfl, fun g' hg => ?_, fun hn => by rw [hi] at hn; cases hn⟩
    rw [hi] at hg
    cases hg
    refine ⟨?_, ?_, ?_, ?_, rfl⟩
    · show some (optStr ((fileInfo dir f).function.map (·.name))) = _
      rw [hi]; rfl
    · show some (optNat ((fileInfo dir f).function.map (·.minArgs))) = _
      rw [hi]; rfl
    · show some (optNat ((fileInfo dir f).function.bind (·.maxArgs))) = _
      rw [hi, Option.bind_some]; cases g.maxArgs <;> rfl
    · show some (optStr ((fileInfo dir f).function.bind (·.example_))) = _
      rw [hi, Option.bind_some]; cases g.example_ <;> rfl
  | error e =>
    have hi : (fileInfo dir f).function = none := by simp [fileInfo, h, Except.toOption]
    refine ⟨rfl, rfl, rfl, fun g' hg => (by rw [hi] at hg; cases hg), fun _ => ⟨?_, display e, rfl⟩⟩
    show some (optStr ((fileInfo dir f).function.map (·.name))) = _
    rw [hi]; rfl

/-- **C126.** A listing that is answered with 200 has the documents of the files that are listed (C99), one for each and in that order, and `total_count` is their number. -/
theorem C126_list (X : Ext) (H : HttpExt) (W : World) (cfg : Config) (report : Health.Report) (request : Str) (s : Site) (doc : Json)
    (h : (route X H W cfg report c!"GET" c!"/list-js" request s).1 = some ⟨200, .json doc⟩) :
    ∃ infos docs, listFunctions H cfg s.fs = .ok infos ∧ member doc c!"functions" = some (.arr docs) ∧ List.Forall₂ Describes infos docs ∧
      member doc c!"total_count" = some (.num (.int infos.length)) := by
  have e : route X H W cfg report c!"GET" c!"/list-js" request s = listJs X H W cfg request s := rfl
  rw [e] at h
  unfold listJs at h
  rw [withToken_send h] at h
  unfold entries at h
  unfold listFunctions
  by_cases he : s.fs.exists cfg.cwd cfg.hooksDir = true
  · obtain ⟨dir, hd⟩ := exists_resolve he
    simp only [he, if_true, hd] at h ⊢
    by_cases hdir : s.fs.isDir dir = true
    · simp only [hdir, if_true] at h ⊢
      cases h
      refine ⟨_, _, rfl, rfl, ?_, ?_⟩
      · generalize (H.listing s.fs.files).filter (fun f => dir.isPrefixOf f.1 && isJs f.1) = files
        have hmap : (files.map (fileInfo dir)).mergeSort (fun a b => Str.le a.filename b.filename) =
            (files.mergeSort fun a b => Str.le (fileInfo dir a).filename (fileInfo dir b).filename).map (fileInfo dir) :=
          (List.map_mergeSort (f := fileInfo dir) (r := fun a b => Str.le (fileInfo dir a).filename (fileInfo dir b).filename) (s := fun a b => Str.le a.filename b.filename) (fun a _ b _ => rfl)).symm
        have hmap' : (files.map (entryOf W dir)).mergeSort (fun a b => Str.le a.info.filename b.info.filename) =
            (files.mergeSort fun a b => Str.le (fileInfo dir a).filename (fileInfo dir b).filename).map (entryOf W dir) :=
          (List.map_mergeSort (fun a _ b _ => by simp only [entryOf_info])).symm
        rw [hmap, hmap', List.map_map, List.forall₂_map_left_iff, List.forall₂_map_right_iff]
        exact List.forall₂_same.2 fun f _ => entryOf_describes W dir f
      · simp [member, listDoc]
    · simp only [hdir] at h
      exact (not_sent h (by decide)).elim
  · simp only [he] at h ⊢
    cases h
    exact ⟨[], [], rfl, rfl, .nil, rfl⟩

/-! ### Reloading -/

/-- **C126.** A reload that is answered with 200 says how many function files there are: `functions_loaded` is the number of valid files in the listing. -/
theorem C126_reload (X : Ext) (H : HttpExt) (W : World) (cfg : Config) (report : Health.Report) (request : Str) (s : Site) (doc : Json)
    (h : (route X H W cfg report c!"POST" c!"/reload-hooks" request s).1 = some ⟨200, .json doc⟩) :
    ∃ infos, listFunctions H cfg s.fs = .ok infos ∧ member doc c!"functions_loaded" = some (.num (.int (infos.filter (·.function.isSome)).length)) := by
  have e : route X H W cfg report c!"POST" c!"/reload-hooks" request s = reloadHooks X H W cfg request s := rfl
  rw [e] at h
  unfold reloadHooks at h
  rw [withToken_send h] at h
  by_cases he : s.fs.exists cfg.cwd cfg.hooksDir = true
  · obtain ⟨dir, hd⟩ := exists_resolve he
    simp only [he, if_true, hooksReadable, hd] at h
    by_cases hdir : s.fs.isDir dir = true
    · simp only [hdir, if_true] at h
      have hl := HttpList.list_eq H cfg s.fs hd hdir
      refine ⟨_, hl, ?_⟩
      have hp := (HttpList.C99_valid_are_loaded H cfg s.fs hd hdir _ hl).length_eq
      cases hr : registerEach X H s.reg (loadJs H cfg s.fs) with
      | mk reg o =>
        rw [hr] at h
        cases o with
        | some f => exact (not_sent h (by decide)).elim
        | none =>
          cases h
          show some (Json.num (.int (loadJs H cfg s.fs).length)) = _
          rw [← hp, List.length_filterMap_eq_countP, List.countP_eq_length_filter]
    · simp only [hdir] at h
      exact (not_sent h (by decide)).elim
  · simp only [he] at h
    refine ⟨[], by unfold listFunctions; rw [if_neg he], ?_⟩
    cases hc : s.fs.createDirs cfg.cwd cfg.hooksDir with
    | mk fs b =>
      simp only [Bool.false_eq_true, if_false, hc] at h
      cases b with
      | false => exact (not_sent h (by decide)).elim
      | true => cases h; rfl

/-- A file that cannot be registered: at least two arguments and at most one. -/
def Spec.neverCalled : Str := c!"// @name: G\n// @min_args: 2\n// @max_args: 1\nfunction execute(args) { return 1; }"

/-- A site with these files in the hooks directory. -/
def Spec.withFiles (files : List (Str × Str)) : Site :=
  { _root_.Spec.site with fs := ⟨[[c!"srv"], [c!"srv", c!"hooks"]], files.map fun f => ([c!"srv", c!"hooks", f.1], f.2)⟩ }

/-- **C126 fails for the count of a reload, twice.** Two files with functions of the same name count as two, though one function comes of them; and a reload that stops at a file that cannot be registered
says that 0 functions were loaded, though those before it can be called now. -/
theorem C126_reload_counts (X : Ext) (H : HttpExt) (W : World) (report : Health.Report) (hl : H.listing = id) :
    (∃ doc, (handle X H W _root_.Spec.open_ report c!"POST /reload-hooks HTTP/1.1\r\n\r\n" (withFiles [(c!"a.js", _root_.Spec.aFunction), (c!"b.js", _root_.Spec.aFunction)])).1 = some ⟨200, .json doc⟩ ∧
      member doc c!"functions_loaded" = some (.num (.int 2)) ∧
      ∀ n, n ≠ c!"F" → (handle X H W _root_.Spec.open_ report c!"POST /reload-hooks HTTP/1.1\r\n\r\n"
        (withFiles [(c!"a.js", _root_.Spec.aFunction), (c!"b.js", _root_.Spec.aFunction)])).2.reg n = none) ∧
    (∃ doc, (handle X H W _root_.Spec.open_ report c!"POST /reload-hooks HTTP/1.1\r\n\r\n" (withFiles [(c!"a.js", _root_.Spec.aFunction), (c!"b.js", neverCalled)])).1 = some ⟨500, .json doc⟩ ∧
      member doc c!"functions_loaded" = some (.num (.int 0)) ∧
      ((handle X H W _root_.Spec.open_ report c!"POST /reload-hooks HTTP/1.1\r\n\r\n" (withFiles [(c!"a.js", _root_.Spec.aFunction), (c!"b.js", neverCalled)])).2.reg c!"F").isSome = true) := by
  obtain ⟨d1, d2, d3, run, io, ls⟩ := H
  simp only at hl
  subst hl
  refine ⟨⟨reloadDoc true c!"Successfully reloaded 2 JavaScript function(s)" 2 none, by kernel_rfl, rfl, fun n hn => ?_⟩, ?_⟩
  · have e : (handle X ⟨d1, d2, d3, run, io, id⟩ W _root_.Spec.open_ report c!"POST /reload-hooks HTTP/1.1\r\n\r\n"
        (withFiles [(c!"a.js", _root_.Spec.aFunction), (c!"b.js", _root_.Spec.aFunction)])).2.reg =
        fun n => if n = c!"F" then some ⟨c!"F", 1, none, run _root_.Spec.aFunction⟩ else if n = c!"F" then some ⟨c!"F", 1, none, run _root_.Spec.aFunction⟩ else none := by kernel_rfl
    rw [e]
    simp [hn]
  · exact ⟨reloadDoc false c!"Failed to reload JavaScript functions" 0 (some c!"min_args cannot be greater than max_args"), by kernel_rfl, rfl, by kernel_rfl⟩

/-! ### Bytes -/

/-- **C126.** What is written for a document can be read back in one way: a status line with the status, lines that announce its length and that it is JSON, and its text. -/
theorem C126_bytes (X : Ext) (m : Message) (doc : Json) (h : m.body = .json doc) :
    ∃ first rest, HttpWrite.Spec.Framed (m.bytes X) (first :: rest) ((X.jsonPrint doc).flatMap String.utf8EncodeChar) ∧
      (∃ reason, first = c!"HTTP/1.1 " ++ Nat.toDigits 10 m.status ++ c!" " ++ reason) ∧ c!"Content-Type: application/json" ∈ rest ∧
      (first :: rest).filterMap HttpWrite.Spec.announced = [((X.jsonPrint doc).flatMap String.utf8EncodeChar).length] := by
  obtain ⟨st, b⟩ := m
  simp only at h
  subst h
  obtain ⟨first, rest, h1, h2, h3, _, h5⟩ := HttpWrite.C93_response st c!"application/json" (X.jsonPrint doc) (by decide)
  exact ⟨first, rest, h1, h2, h3, h5⟩

/-! ### Requests that cannot be read -/

/-- **C126.** Whatever a client sends and however it comes in: if it cannot be read as a request, the reply has status 400, the document says so with a text, and nothing else happens. The text is
"413 …" for what is too large when the headers have come in, "400 …" for what is not text or too large later, "408 …" for a timeout and "500 …" for other failures of the connection. -/
theorem C126_unreadable (X : Ext) (H : HttpExt) (W : World) (cfg : Config) (report : Health.Report) (want : HttpRead.Schedule) (c : HttpRead.Client) (s : Site) (e : HttpRead.ReadErr)
    (h : (HttpRead.readRequest X want c []).1 = .error e) :
    ∃ doc text, connection X H W cfg report want c s = (some ⟨400, .json doc⟩, s) ∧ SaysNo doc ∧ member doc c!"error" = some (.str text) ∧
      (e = .requestTooLarge ∨ e = .bodyTooLarge → text = c!"413 Payload Too Large") ∧ (e = .exceeded ∨ e = .notUtf8 → text = c!"400 Bad Request") ∧
      (e = .io → text = if W.timedOut then c!"408 Request Timeout" else c!"500 Internal Server Error") := by
  unfold connection
  rw [h]
  refine ⟨_, readErrorText W e, rfl, error_no _, rfl, ?_, ?_, ?_⟩
  · rintro (rfl | rfl) <;> kernel_rfl
  · rintro (rfl | rfl) <;> kernel_rfl
  · rintro rfl; rfl

/-- **C126 fails for the status of such a reply.** A request that announces too long a body is answered with status 400, and the text that it is 413. -/
theorem C126_not_413 (X : Ext) (H : HttpExt) (W : World) (cfg : Config) (report : Health.Report) (s : Site) :
    connection X H W cfg report (fun _ => 4096) ⟨HttpRead.Spec.bytesOf c!"POST /eval HTTP/1.1\r\nContent-Length: 2000000\r\n\r\n", true⟩ s =
      (some ⟨400, .json (.obj [(c!"error", .str c!"413 Payload Too Large"), (c!"success", .bool false)])⟩, s) := by
  kernel_rfl

/-! ### The health report -/

/-- A request whose first line is well formed goes to its route. -/
theorem handle_text (X : Ext) (H : HttpExt) (W : World) (cfg : Config) (report : Health.Report) (s : Site) {method path version : Str} {query : Option Str}
    (hl : Http.Spec.Line method path query version) (rest : Str) :
    handle X H W cfg report (Http.Spec.requestText method path query version rest) s = route X H W cfg report method path (Http.Spec.requestText method path query version rest) s := by
  obtain ⟨first, target, hlines, hwords, hhead⟩ := request_words hl rest
  unfold handle
  rw [hlines]
  simp only [hwords, hhead]

/-- **C126.** The health page gives the numbers of the report (C122), whatever the token. -/
theorem C126_health (X : Ext) (H : HttpExt) (W : World) (cfg : Config) (report : Health.Report) (s : Site) {query : Option Str} {version : Str} (rest : Str)
    (hl : Http.Spec.Line c!"GET" c!"/health" query version) :
    ∃ doc stats, handle X H W cfg report (Http.Spec.requestText c!"GET" c!"/health" query version rest) s = (some ⟨200, .json doc⟩, s) ∧
      member doc c!"requests_processed" = some (.num (.int report.requests)) ∧ member doc c!"avg_execution_time_ms" = some (Json.ofF64 report.average) ∧
      member doc c!"cache_stats" = some stats ∧ member stats c!"hits" = some (.num (.int report.hits)) ∧ member stats c!"misses" = some (.num (.int report.misses)) ∧
      member stats c!"hit_rate" = some (Json.ofF64 report.hitRate) ∧ member stats c!"entries" = some (.num (.int report.entries)) ∧
      member stats c!"evictions" = some (.num (.int report.evictions)) := by
  rw [handle_text X H W cfg report s hl rest]
  exact ⟨_, _, rfl, rfl, rfl, rfl, rfl, rfl, rfl, rfl, rfl⟩

/-! ### Tokens -/

/-- **C126.** The messages of a history are the same for two servers that differ in tokens the requests do not carry. -/
theorem C126_blind (H : HttpExt) (cfg : Config) (auth admin : Option Str) (ts : List Turn) (l : Health.Live) (hX : ∀ t ∈ ts, _root_.Spec.LowersWords t.X)
    (hb : ∀ t ∈ ts, TokenSecrecy.Spec.Blind t.request cfg.authToken auth ∧ TokenSecrecy.Spec.Blind t.request cfg.adminToken admin) :
    serve H { cfg with authToken := auth, adminToken := admin } l ts = serve H cfg l ts := by
  have key : ∀ (X : Ext) (W : World) (report : Health.Report) (request : Str) (s : Site), passes X request cfg.authToken = passes X request auth →
      passes X request cfg.adminToken = passes X request admin →
      handle X H W { cfg with authToken := auth, adminToken := admin } report request s = handle X H W cfg report request s := by
    intro X W report request s h1 h2
    have w1 : ∀ t k, withToken X request auth t s k = withToken X request cfg.authToken t s k := fun t k => by simp only [withToken, h1]
    have w2 : ∀ t k, withToken X request admin t s k = withToken X request cfg.adminToken t s k := fun t k => by simp only [withToken, h2]
    have hd : ∀ fs n, deleteJs H { cfg with authToken := auth, adminToken := admin } fs n = deleteJs H cfg fs n := fun _ _ => rfl
    have hde : ∀ fs n, deleteError W { cfg with authToken := auth, adminToken := admin } fs n = deleteError W cfg fs n := fun _ _ => rfl
    have hl : ∀ fs, loadJs H { cfg with authToken := auth, adminToken := admin } fs = loadJs H cfg fs := fun _ => rfl
    have he : ∀ fs, entries H W { cfg with authToken := auth, adminToken := admin } fs = entries H W cfg fs := fun _ => rfl
    have hh : ∀ fs, hooksReadable { cfg with authToken := auth, adminToken := admin } fs = hooksReadable cfg fs := fun _ => rfl
    have hst : ∀ w n c, storeJs X H W w { cfg with authToken := auth, adminToken := admin } s n c = storeJs X H W w cfg s n c := fun _ _ _ => rfl
    unfold handle
    cases Str.lines request with
    | nil => rfl
    | cons first rest =>
      simp only
      split
      · simp only [route, evalPost, evalGet, uploadJs, updateJs, deleteJsRequest, listJs, reloadHooks, clearCache, w1, w2, hd, hde, hl, he, hh, hst]
      · rfl
  induction ts generalizing l with
  | nil => rfl
  | cons t ts ih =>
    have ht := hb t (by simp)
    have p1 := TokenSecrecy.passes_blind (hX t (by simp)) ht.1
    have p2 := TokenSecrecy.passes_blind (hX t (by simp)) ht.2
    have e : l.visit t.X H { cfg with authToken := auth, adminToken := admin } t.request t.micros = l.visit t.X H cfg t.request t.micros := by
      simp only [Health.Live.visit]
      rw [TokenSecrecy.handle_tokens t.X H cfg auth admin t.request l.site p1 p2]
    simp only [serve, e, key t.X t.W l.report t.request l.site p1 p2]
    rw [ih _ (fun w hw => hX w (by simp [hw])) (fun w hw => hb w (by simp [hw]))]

/-! ### Cases -/

/-- A world in which maps without variables are listed. -/
def Spec.someWorld : World := ⟨fun _ _ => c!"No such file", fun _ => c!"now", .fin 1, c!"1.00", fun _ => [], .zero false, c!"root", c!"docs", c!"openapi", false⟩

open Classical in
/-- Worlds that can list maps exist. -/
example : ∃ W : World, WorldOk W := by
  refine ⟨{ someWorld with entries := fun env => if h : ∃ l, Lists env l then h.choose else [] }, fun env h => ?_⟩
  simp only [dif_pos h]
  exact h.choose_spec

/-- `C126_same`, `C126_truthful`, `C126_evaluation`, `C126_ids`: two evaluations, the second of which fails. -/
example (X : Ext) (H : HttpExt) (W : World) (fs : Fs) (reg : Registry) :
    let ms := (serve H ⟨none, none, c!"hooks", []⟩ (.start fs reg) [⟨X, W, c!"GET /eval?expr=7 HTTP/1.1\r\n\r\n", 5⟩, ⟨X, W, c!"GET /eval?expr=7%2B HTTP/1.1\r\n\r\n", 5⟩]).1
    ms.map (fun m => m.map (·.status)) = [some 200, some 400] ∧ ms.map (fun m => m.bind idOf) = [some 0, some 1] ∧
      ms.head? = some (some ⟨200, .json (evalDoc true (simpleOutput X (.num (F64.ofNat 7))) [] none W.ms 0)⟩) :=
  ⟨by kernel_rfl, by kernel_rfl, by kernel_rfl⟩

/-- `C126_form`: an evaluation asked for in full. -/
example (X : Ext) (H : HttpExt) (W : World) (report : Health.Report) :
    (route X { H with decodeEval := fun _ => .ok ⟨c!"7", none, some true, none⟩ } W _root_.Spec.open_ report c!"POST" c!"/eval" c!"POST /eval HTTP/1.1\r\n\r\n{}" _root_.Spec.site).1 =
      some ⟨200, .json (evalDoc true (.obj [(c!"execution_time", .str (W.msText ++ c!" ms")), (c!"result", structuredValue X (.num (F64.ofNat 7))), (c!"type", .str c!"Number")]) [] none W.ms 0)⟩ := by
  kernel_rfl

/-- `C126_store`: an upload. -/
example (X : Ext) (H : HttpExt) (W : World) (report : Health.Report) :
    (route X (_root_.Spec.uploading H c!"x.js" _root_.Spec.aFunction) W _root_.Spec.open_ report c!"POST" c!"/upload-js" c!"POST /upload-js HTTP/1.1\r\n\r\n{}" _root_.Spec.site).1 =
      some ⟨200, .json (storeDoc true c!"JavaScript function 'F' uploaded and validated successfully" (some c!"F") (some ⟨true, some c!"No example provided to test", none⟩) none)⟩ := by
  kernel_rfl

/-- `C126_list`, `C126_reload`: a site with a function file. -/
example (X : Ext) (H : HttpExt) (W : World) (report : Health.Report) :
    (route X { H with listing := id } W _root_.Spec.open_ report c!"POST" c!"/reload-hooks" c!"POST /reload-hooks HTTP/1.1\r\n\r\n" (withFiles [(c!"a.js", _root_.Spec.aFunction)])).1 =
      some ⟨200, .json (reloadDoc true c!"Successfully reloaded 1 JavaScript function(s)" 1 none)⟩ := by
  kernel_rfl

example (X : Ext) (H : HttpExt) (W : World) (report : Health.Report) :
    (route X { H with listing := id } W _root_.Spec.open_ report c!"GET" c!"/list-js" c!"GET /list-js HTTP/1.1\r\n\r\n" (withFiles [(c!"a.js", _root_.Spec.aFunction)])).1.map (·.status) = some 200 := by
  kernel_rfl

/-! ### The texts of failures -/

/-- The pieces of a message with holes between them. -/
def Spec.holes : List Str → Str
  | [] => []
  | [p] => p
  | p :: ps => p ++ c!"{}" ++ holes ps

/-- The pieces of a message with the arguments between them, the first between the first two. -/
def Spec.filled : List Str → List Str → Str
  | [], _ => []
  | p :: ps, as => p ++ (as.head?.getD [] ++ filled ps as.tail)

theorem fill_piece (p : Str) (hp : '{' ∉ p) (cs : Str) (as : List Str) : fill (p ++ cs) as = p ++ fill cs as := by
  induction p with
  | nil => rfl
  | cons c p ih =>
    have hc : c ≠ '{' := fun h => hp (by simp [h])
    show fill (c :: (p ++ cs)) as = c :: (p ++ fill cs as)
    rw [← ih (fun h => hp (List.mem_cons_of_mem _ h))]
    generalize p ++ cs = q
    have : fill (c :: q) as = c :: fill q as := by
      rw [fill.eq_def (c :: q) as]
      split
      · simp_all
      · simp_all
      · simp_all
    exact this

theorem fill_holes (pieces : List Str) : ∀ (as : List Str), (∀ p ∈ pieces, '{' ∉ p) → pieces.length = as.length + 1 →
    fill (holes pieces) as = filled pieces as := by
  induction pieces with
  | nil => intro as _ h; cases h
  | cons p ps ih =>
    intro as hp h
    cases ps with
    | nil =>
      cases as with
      | nil => have := fill_piece p (hp p (by simp)) [] []; rw [List.append_nil] at this; simpa [holes, filled, fill] using this
      | cons a as => simp at h
    | cons q qs =>
      cases as with
      | nil => simp at h
      | cons a as =>
        have h1 := ih as (fun p h => hp p (List.mem_cons_of_mem _ h)) (by simpa using h)
        show fill (p ++ c!"{}" ++ holes (q :: qs)) (a :: as) = p ++ (a ++ filled (q :: qs) as)
        rw [List.append_assoc, fill_piece p (hp p (by simp)), ← h1]
        rfl

/-- **C126.** The text of a failure is its message with each argument in the place of its hole, the first in the first and so on, whatever the arguments contain, and the position, if there is one, after it. -/
theorem C126_text (msg : String) (pieces as : List Str) (hm : msg.toList = holes pieces) (hp : ∀ p ∈ pieces, '{' ∉ p) (hn : pieces.length = as.length + 1) :
    display (.err msg as none) = filled pieces as ∧
    ∀ p, display (.err msg as (some p)) = filled pieces as ++ c!" at position " ++ Str.showInt p := by
  have h := fill_holes pieces as hp hn
  refine ⟨?_, fun p => ?_⟩ <;> simp only [display, hm, h]

/-- `C126_text`: a function called with too few arguments, by a name with holes of its own. -/
example : display (.err "{} expects at least {} arguments, got {}" [c!"{}F", c!"2", c!"1"] none) = c!"{}F expects at least 2 arguments, got 1" :=
  (C126_text _ [[], c!" expects at least ", c!" arguments, got ", []] [c!"{}F", c!"2", c!"1"] rfl (by decide) rfl).1

end HttpReply
