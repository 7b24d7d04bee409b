import Verif.Props.HttpReplyDocs
import Verif.Props.JsFile
/-! C126, continued: why a request about a function file was refused. -/

namespace HttpReply
open Http HttpReply.Spec

/-- A reply with a document that has these members. -/
def Spec.Replied (o : Out) (status : Nat) (members : List (Str × Json)) : Prop :=
  ∃ doc, o.1 = some ⟨status, .json doc⟩ ∧ ∀ m ∈ members, member doc m.1 = some m.2

theorem withToken_ok {X : Ext} {request : Str} {token : Option Str} {t : Str} {s : Site} {k : Out} (h : passes X request token = .ok true) :
    withToken X request token t s k = k := by unfold withToken guarded; rw [h]; rfl

/-- **C126.** What is said about a deletion, when the token and the request are in order: a name without `.js` is refused; if there is no such file the reply says so; if there is, the reply is that it was
deleted, and it is gone, or that it could not be deleted, and nothing has changed. -/
theorem C126_why_delete (X : Ext) (H : HttpExt) (W : World) (cfg : Config) (report : Health.Report) (request : Str) (s : Site) (name : Str)
    (ht : passes X request cfg.adminToken = .ok true) (hq : jsonBody H.decodeDelete request = .ok name) :
    let o := route X H W cfg report c!"DELETE" c!"/delete-js" request s
    let file := joinPath cfg.hooksDir name
    (Str.endsWith name c!".js" = false → Replied o 400 [(c!"success", .bool false), (c!"error", .str c!"Invalid file extension")] ∧ o.2 = s) ∧
    (Str.endsWith name c!".js" = true → s.fs.exists cfg.cwd file = false →
      Replied o 500 [(c!"success", .bool false), (c!"error", .str (c!"File '" ++ name ++ c!"' does not exist"))] ∧ o.2 = s) ∧
    (Str.endsWith name c!".js" = true → s.fs.exists cfg.cwd file = true →
      (Replied o 200 [(c!"success", .bool true), (c!"error", .null), (c!"message", .str (c!"JavaScript function file '" ++ name ++ c!"' deleted successfully"))] ∧
        ∃ p, s.fs.resolve cfg.cwd file = some p ∧ (s.fs.read p).isSome ∧ o.2.fs.read p = none) ∨
      (Replied o 500 [(c!"success", .bool false), (c!"error", .str (c!"Failed to delete JS file: " ++ W.osError c!"unlink" file))] ∧ o.2 = s)) := by
  intro o file
  have ho : o = (if !Str.endsWith name c!".js" then send s 400 (deleteDoc false c!"Filename must end with .js extension" (some c!"Invalid file extension"))
      else match deleteJs H cfg s.fs name with
        | (fs, true) => send { s with fs := fs } 200 (deleteDoc true (c!"JavaScript function file '" ++ name ++ c!"' deleted successfully") none)
        | (fs, false) => send { s with fs := fs } 500 (deleteDoc false (c!"Failed to delete file '" ++ name ++ c!"'") (some (deleteError W cfg s.fs name)))) := by
    show deleteJsRequest X H W cfg request s = _
    unfold deleteJsRequest
    rw [withToken_ok ht]
    unfold guarded
    rw [hq]
    rfl
  rw [ho]
  refine ⟨fun h => ?_, fun h hx => ?_, fun h hx => ?_⟩
  · rw [h]
    exact ⟨⟨_, rfl, by simp [deleteDoc, member, optStr]⟩, rfl⟩
  · have hd : deleteJs H cfg s.fs name = (s.fs, false) := by
      unfold Fs.exists at hx
      unfold deleteJs
      show (match s.fs.resolve cfg.cwd file with | some p => _ | none => _) = _
      cases hr : s.fs.resolve cfg.cwd file with
      | none => rfl
      | some p =>
        rw [hr] at hx
        simp only [Bool.or_eq_false_iff] at hx
        simp only [hx.2, Bool.false_and]
        rfl
    rw [h, hd]
    refine ⟨⟨_, rfl, ?_⟩, rfl⟩
    have he : deleteError W cfg s.fs name = c!"File '" ++ name ++ c!"' does not exist" := by
      unfold deleteError
      rw [show s.fs.exists cfg.cwd (joinPath cfg.hooksDir name) = false from hx]
      rfl
    rw [he]
    simp [deleteDoc, member, optStr]
  · have he : deleteError W cfg s.fs name = c!"Failed to delete JS file: " ++ W.osError c!"unlink" file := by
      unfold deleteError
      rw [show s.fs.exists cfg.cwd (joinPath cfg.hooksDir name) = true from hx]
      rfl
    rw [h]
    unfold deleteJs
    simp only [Bool.not_true, Bool.false_eq_true, if_false]
    show _ ∨ _
    cases hr : s.fs.resolve cfg.cwd (joinPath cfg.hooksDir name) with
    | none => exact .inr ⟨⟨_, rfl, by rw [he]; simp [deleteDoc, member, optStr]⟩, rfl⟩
    | some p =>
      by_cases hg : ((s.fs.read p).isSome && !H.ioError (joinPath cfg.hooksDir name)) = true
      · left
        simp only [hg, if_true]
        refine ⟨⟨_, rfl, by simp [deleteDoc, member, optStr]⟩, p, rfl, by simp at hg; exact hg.1, ?_⟩
        simp [send, Fs.remove, Fs.read]
      · right
        simp only [hg]
        exact ⟨⟨_, rfl, by rw [he]; simp [deleteDoc, member, optStr]⟩, rfl⟩

/-- The hypotheses of `C126_why_delete`: two deletions of a file of a site with one. -/
example (X : Ext) (H : HttpExt) (name : Str) :
    passes X c!"DELETE /delete-js HTTP/1.1\r\n\r\n{}" _root_.Spec.open_.adminToken = .ok true ∧
    jsonBody ({ H with decodeDelete := fun _ => .ok name }).decodeDelete c!"DELETE /delete-js HTTP/1.1\r\n\r\n{}" = .ok name ∧
    Str.endsWith c!"a.js" c!".js" = true ∧ (withFiles [(c!"a.js", _root_.Spec.aFunction)]).fs.exists _root_.Spec.open_.cwd (joinPath _root_.Spec.open_.hooksDir c!"a.js") = true ∧
    (withFiles [(c!"a.js", _root_.Spec.aFunction)]).fs.exists _root_.Spec.open_.cwd (joinPath _root_.Spec.open_.hooksDir c!"b.js") = false :=
  ⟨by kernel_rfl, by kernel_rfl, by kernel_rfl, by kernel_rfl, by kernel_rfl⟩

/-- The endpoint that stores new functions, or the one that replaces them. -/
def Spec.storing (update : Bool) : Str × Str := if update then (c!"PUT", c!"/update-js") else (c!"POST", c!"/upload-js")

/-- **C126.** What is said about an upload or an update that is refused, when the token and the request are in order: a name without `.js`; an update of a file that is not there; no code; code that does
not define a function, with what is wrong with it; a file that cannot be written, and then the hooks directory is named only if it was not there. -/
theorem C126_why_store (X : Ext) (H : HttpExt) (W : World) (cfg : Config) (report : Health.Report) (request : Str) (s : Site) (q : JsRequest) (update : Bool)
    (ht : passes X request cfg.adminToken = .ok true) (hq : jsRequest X H request = .ok q) :
    let o := route X H W cfg report (storing update).1 (storing update).2 request s
    let file := joinPath cfg.hooksDir q.filename
    (Str.endsWith q.filename c!".js" = false → Replied o 400 [(c!"success", .bool false), (c!"error", .str c!"Invalid file extension")] ∧ o.2 = s) ∧
    (Str.endsWith q.filename c!".js" = true → update = true → s.fs.exists cfg.cwd file = false →
      Replied o 404 [(c!"success", .bool false), (c!"message", .str (c!"File '" ++ q.filename ++ c!"' does not exist")), (c!"error", .str c!"File not found")] ∧ o.2 = s) ∧
    (Str.endsWith q.filename c!".js" = true → (update = true → s.fs.exists cfg.cwd file = true) →
      (q.jsCode = none → q.fileContent = none → Replied o 400 [(c!"success", .bool false), (c!"error", .str c!"Missing JS content")] ∧ o.2 = s) ∧
      ∀ code, (q.jsCode = some code ∨ q.jsCode = none ∧ q.fileContent = some code) →
        (∀ msg as p, parseJs code = .error (.err msg as p) →
          Replied o 400 [(c!"success", .bool false), (c!"function_name", .null), (c!"error", .str (c!"Syntax/structure validation failed: " ++ msg.toList))] ∧ o.2 = s) ∧
        ∀ f, parseJs code = .ok f → f.example_ = none →
          (Replied o 200 [(c!"success", .bool true), (c!"function_name", .str f.name), (c!"error", .null)]) ∨
          (Replied o 500 [(c!"success", .bool false), (c!"function_name", .str f.name), (c!"error", .str (c!"Failed to write JS file: " ++ W.osError c!"write" file))]) ∨
          (Replied o 500 [(c!"success", .bool false), (c!"function_name", .str f.name), (c!"error", .str (c!"Failed to create hooks directory: " ++ W.osError c!"mkdir" cfg.hooksDir))] ∧
            s.fs.exists cfg.cwd cfg.hooksDir = false)) := by
  intro o file
  obtain ⟨w, ho⟩ : ∃ w, o = (if !Str.endsWith q.filename c!".js" then badName s
      else if update && !s.fs.exists cfg.cwd (joinPath cfg.hooksDir q.filename) then
        send s 404 (storeDoc false (c!"File '" ++ q.filename ++ c!"' does not exist") none none (some c!"File not found"))
      else storeJs X H W w cfg s q.filename q.code) := by
    cases update with
    | true =>
      refine ⟨updating, ?_⟩
      show updateJs X H W cfg request s = _
      unfold updateJs
      rw [withToken_ok ht]
      unfold guarded
      rw [hq]
      rfl
    | false =>
      refine ⟨uploading, ?_⟩
      show uploadJs X H W cfg request s = _
      unfold uploadJs
      rw [withToken_ok ht]
      unfold guarded
      rw [hq]
      simp only [Bool.false_and]
      cases Str.endsWith q.filename c!".js" <;> rfl
  rw [ho]
  refine ⟨fun h => ?_, fun h hu hx => ?_, fun h hx => ?_⟩
  · rw [h]
    exact ⟨⟨_, rfl, by simp [storeDoc, member, optStr]⟩, rfl⟩
  · rw [h, hu, show s.fs.exists cfg.cwd (joinPath cfg.hooksDir q.filename) = false from hx]
    exact ⟨⟨_, rfl, by simp [storeDoc, member, optStr]⟩, rfl⟩
  · have hg : (update && !s.fs.exists cfg.cwd (joinPath cfg.hooksDir q.filename)) = false := by
      cases update with
      | false => rfl
      | true => simp [show s.fs.exists cfg.cwd (joinPath cfg.hooksDir q.filename) = true from hx rfl]
    rw [h, hg]
    simp only [Bool.not_true, Bool.false_eq_true, if_false]
    refine ⟨fun h1 h2 => ?_, fun code hc => ?_⟩
    · have : q.code = none := by simp [JsRequest.code, h1, h2]
      rw [this]
      exact ⟨⟨_, rfl, by simp [storeDoc, member, optStr]⟩, rfl⟩
    · have : q.code = some code := by
        rcases hc with h1 | ⟨h1, h2⟩
        · simp [JsRequest.code, h1]
        · simp [JsRequest.code, h1, h2]
      rw [this]
      unfold storeJs
      refine ⟨fun msg as p hp => ?_, fun f hp hex => ?_⟩
      · have hd : display (.err "Syntax/structure validation failed: {}" [msg.toList] none) = c!"Syntax/structure validation failed: " ++ msg.toList := by
          have := (C126_text "Syntax/structure validation failed: {}" [c!"Syntax/structure validation failed: ", []] [msg.toList] rfl (by decide) rfl).1
          rw [this]
          simp [filled]
        have hv : validate X H code = fail "Syntax/structure validation failed: {}" [msg.toList] := by
          unfold validate
          rw [hp]
          simp only [parse_plain hp]
        unfold guarded
        simp only [hv, fail]
        rw [hd]
        exact ⟨⟨_, rfl, by simp [storeDoc, member, optStr]⟩, rfl⟩
      · have hv : validate X H code = .ok (f, ⟨true, some c!"No example provided to test", none⟩) := by
          unfold validate
          rw [hp]
          simp only [hex]
        unfold guarded
        simp only [hv]
        cases hs : saveJs H cfg s.fs q.filename code with
        | mk fs b =>
          cases b with
          | true => exact .inl ⟨_, rfl, by simp [storeDoc, member, optStr]⟩
          | false =>
            right
            unfold saveError
            by_cases he : s.fs.exists cfg.cwd cfg.hooksDir = true
            · left
              have : (ensureHooks cfg s.fs).2 = true := by unfold ensureHooks; rw [he]; rfl
              rw [this]
              exact ⟨_, rfl, by simp [storeDoc, member, optStr]; rfl⟩
            · cases hh : (ensureHooks cfg s.fs).2 with
              | true => left; exact ⟨_, rfl, by simp [storeDoc, member, optStr]; rfl⟩
              | false => right; exact ⟨⟨_, rfl, by simp [storeDoc, member, optStr]⟩, by simpa using he⟩

/-- The hypotheses of `C126_why_store`: a function without an example, and a text that is none. -/
example (X : Ext) (H : HttpExt) :
    passes X c!"POST /upload-js HTTP/1.1\r\n\r\n{}" _root_.Spec.open_.adminToken = .ok true ∧
    jsRequest X (_root_.Spec.uploading H c!"x.js" _root_.Spec.aFunction) c!"POST /upload-js HTTP/1.1\r\n\r\n{}" = .ok ⟨c!"x.js", some _root_.Spec.aFunction, none⟩ ∧
    Str.endsWith c!"x.js" c!".js" = true ∧ ((parseJs _root_.Spec.aFunction).toOption.map (·.example_)) = some none ∧
    parseJs c!"let x = 1" = .error (.err "JavaScript function must have @name annotation" [] none) :=
  ⟨by kernel_rfl, by kernel_rfl, by kernel_rfl, by kernel_rfl, by kernel_rfl⟩

/-! ### The entries of the listing -/

theorem describe_last (code : Str) : describe code = JsFile.lastSaid c!"description" (Str.lines code) := by
  have go : ∀ (ls : List Str) (d : Option Str), ls.foldl (fun d l => match Str.stripPrefix (Str.strip l) c!"// @description:" with
      | some r => some (Str.strip r)
      | none => d) d = (JsFile.lastSaid c!"description" ls).or d := by
    intro ls
    induction ls with
    | nil => intro d; rfl
    | cons l ls ih =>
      intro d
      rw [List.foldl_cons, ih, JsFile.lastSaid_cons]
      have : JsFile.said c!"description" l = (Str.stripPrefix (Str.strip l) c!"// @description:").map Str.strip := rfl
      rw [this]
      cases JsFile.lastSaid c!"description" ls <;> cases Str.stripPrefix (Str.strip l) c!"// @description:" <;> rfl
  refine (go (Str.lines code) none).trans ?_
  simp

/-- **C126.** What a listing says of a file beyond its function (`C126_list`): when it was changed, what is wrong with it if it defines none, and otherwise the description that the last comment about it
gives, if there is one. -/
theorem C126_list_comments (X : Ext) (H : HttpExt) (W : World) (cfg : Config) (report : Health.Report) (request : Str) (s : Site) (doc : Json)
    (h : (route X H W cfg report c!"GET" c!"/list-js" request s).1 = some ⟨200, .json doc⟩) :
    ∃ docs, member doc c!"functions" = some (.arr docs) ∧ ∀ d ∈ docs, ∃ p ls, (p, c!"\n".intercalate ls) ∈ H.listing s.fs.files ∧ (∀ l ∈ ls, '\n' ∉ l) ∧
      member d c!"last_modified" = some (.str (W.modified p)) ∧
      (∀ msg as pos, parseJs (c!"\n".intercalate ls) = .error (.err msg as pos) → member d c!"validation_error" = some (.str msg.toList) ∧ member d c!"description" = some .null) ∧
      (∀ f, parseJs (c!"\n".intercalate ls) = .ok f →
        (JsFile.Spec.Silent c!"description" ls → member d c!"description" = some .null) ∧
        ∀ t, JsFile.Spec.Last c!"description" t ls → member d c!"description" = some (.str t)) := by
  have e : route X H W cfg report c!"GET" c!"/list-js" request s = listJs X H W cfg request s := rfl
  rw [e] at h
  unfold listJs at h
  rw [withToken_send h] at h
  cases he : entries H W cfg s.fs with
  | error t => rw [he] at h; exact (not_sent h (by decide)).elim
  | ok es =>
    rw [he] at h
    cases h
    refine ⟨_, rfl, fun d hd => ?_⟩
    obtain ⟨en, hen, rfl⟩ := List.mem_map.1 hd
    have hsrc : ∃ dir f, f ∈ H.listing s.fs.files ∧ en = entryOf W dir f := by
      unfold entries at he
      split at he
      · split at he
        · split at he
          · cases he
            rw [List.mem_mergeSort] at hen
            obtain ⟨f, hf, rfl⟩ := List.mem_map.1 hen
            exact ⟨_, f, (List.mem_filter.1 hf).1, rfl⟩
          · cases he
        · cases he; cases hen
      · cases he; cases hen
    obtain ⟨dir, ⟨p, code⟩, hf, rfl⟩ := hsrc
    obtain ⟨ls, hl, rfl⟩ := JsFile.C131_lines code
    refine ⟨p, ls, hf, hl, ?_, fun msg as pos hp => ?_, fun f hp => ?_⟩
    · unfold entryOf
      split <;> rfl
    · unfold entryOf
      rw [hp]
      refine ⟨?_, rfl⟩
      show some (optStr (some (display (.err msg as pos)))) = _
      rw [parse_plain hp]
      rfl
    · unfold entryOf
      rw [hp]
      have hd : member (Entry.doc ⟨fileInfo dir (p, c!"\n".intercalate ls), describe (c!"\n".intercalate ls), W.modified p, none⟩) c!"description" =
          some (optStr (JsFile.lastSaid c!"description" ls)) := by
        show some (optStr (describe (c!"\n".intercalate ls))) = _
        rw [describe_last, JsFile.lastSaid_lines ls hl]
      refine ⟨fun hs => ?_, fun t ht => ?_⟩
      · rw [(JsFile.silent_iff _ _).1 hs] at hd; exact hd
      · rw [(JsFile.last_iff _ _ _).1 ht] at hd; exact hd

/-- `C126_list_comments`: the last of two descriptions is listed. -/
example (X : Ext) (H : HttpExt) (W : World) (report : Health.Report) :
    ((route X { H with listing := id } W _root_.Spec.open_ report c!"GET" c!"/list-js" c!"GET /list-js HTTP/1.1\r\n\r\n"
      (withFiles [(c!"a.js", c!"// @name: F\n// @description: one\n// @description: two")])).1.bind fun m => match m.body with
        | .json doc => (member doc c!"functions").bind fun fs => match fs with
          | .arr [d] => member d c!"description"
          | _ => none
        | _ => none) = some (.str c!"two") := by kernel_rfl

end HttpReply
