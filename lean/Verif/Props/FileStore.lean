import Verif.Props.HttpJsBody
import Verif.Props.HttpFiles
import Verif.Props.HttpRoutes
import Verif.Props.HttpList
import Verif.Props.HttpForms
/-! C119: the function files are a map from names to code, under every history of requests. -/

open Http _root_.Spec Http.Spec HttpList HttpQuery.Spec HttpJsBody HttpJsBody.Spec

namespace FileStore

/-- A name of a file right in the directory of functions. -/
def Spec.FileName (name : Str) : Prop := (∃ stem, name = stem ++ c!".js") ∧ '/' ∉ name

/-- What is asked about files. -/
inductive Spec.Call where
  | upload (name : Str) (code : Option Str)
  | update (name : Str) (code : Option Str)
  | delete (name : Str)

/-- The endpoint for it. -/
def Spec.Call.endpoint : Call → Str × Str
  | .upload .. => (c!"POST", c!"/upload-js")
  | .update .. => (c!"PUT", c!"/update-js")
  | .delete .. => (c!"DELETE", c!"/delete-js")

/-- The files, by name. -/
abbrev Spec.Store := Str → Option Str

/-- The store with a file changed. -/
def Spec.Store.set (st : Store) (name : Str) (code : Option Str) : Store := fun n => if n = name then code else st n

/-- What happens to a request. -/
inductive Spec.Event where
  /-- A call that can be read, from someone who may make it. -/
  | call (c : Call)
  /-- A body that cannot be read. -/
  | unreadable
  /-- A wrong token. -/
  | refused
  /-- A request that is not about files. -/
  | elsewhere

/-- How a store answers, with what status, and what it is afterwards. -/
inductive Spec.Reacts (st : Store) : Event → Option Nat → Store → Prop where
  | uploaded {name code : Str} : FileName name → IsFunction code → Reacts st (.call (.upload name (some code))) (some 200) (st.set name (some code))
  | uploadName {name : Str} {code : Option Str} : (¬ ∃ stem, name = stem ++ c!".js") → Reacts st (.call (.upload name code)) (some 400) st
  | uploadCode {name : Str} {code : Option Str} : (∀ c, code = some c → ¬ IsFunction c) → Reacts st (.call (.upload name code)) (some 400) st
  | updated {name code old : Str} : FileName name → st name = some old → IsFunction code → Reacts st (.call (.update name (some code))) (some 200) (st.set name (some code))
  | updateName {name : Str} {code : Option Str} : (¬ ∃ stem, name = stem ++ c!".js") → Reacts st (.call (.update name code)) (some 400) st
  | updateMissing {name : Str} {code : Option Str} : FileName name → st name = none → Reacts st (.call (.update name code)) (some 404) st
  | updateCode {name old : Str} {code : Option Str} : st name = some old → (∀ c, code = some c → ¬ IsFunction c) → Reacts st (.call (.update name code)) (some 400) st
  | deleted {name old : Str} : FileName name → st name = some old → Reacts st (.call (.delete name)) (some 200) (st.set name none)
  | deleteName {name : Str} : (¬ ∃ stem, name = stem ++ c!".js") → Reacts st (.call (.delete name)) (some 400) st
  | deleteMissing {name : Str} : FileName name → st name = none → Reacts st (.call (.delete name)) (some 500) st
  | unreadable : Reacts st .unreadable (some 400) st
  | refused : Reacts st .refused (some 401) st
  | elsewhere {n : Option Nat} : Reacts st .elsewhere n st

/-- How a store answers a history. -/
inductive Spec.Runs : Store → List Event → List (Option Nat) → Store → Prop where
  | nil {st : Store} : Runs st [] [] st
  | cons {st st' st'' : Store} {e : Event} {es : List Event} {n : Option Nat} {ns : List (Option Nat)} : Reacts st e n st' → Runs st' es ns st'' → Runs st (e :: es) (n :: ns) st''

/-- The headers and body of a request with JSON in it. -/
def Spec.withJson (before after : List Str) (body : Str) : Str :=
  (before ++ c!"Content-Type: application/json" :: after).flatMap (· ++ c!"\r\n") ++ c!"\r\n" ++ body

/-- The headers and body of a request with a form in it. -/
def Spec.withForm (headers : List Str) (boundary : Str) (fs : List Field) : Str :=
  (headers.map (· ++ c!"\r\n")).flatten ++ (c!"Content-Type: multipart/form-data; boundary=" ++ boundary ++ c!"\r\n\r\n" ++ form boundary fs)

/-- The JSON body for a call. -/
def Spec.Call.In (j : Json) : Call → Prop
  | .upload name code => BodyGivesFile j name code
  | .update name code => BodyGivesFile j name code
  | .delete name => BodyGivesName j name

/-- Headers and body that send a call: JSON, or for a file with code also a form. -/
inductive Spec.Sends (tree : Str → Option Json) : Call → Str → Prop where
  | json {c : Call} {before after : List Str} {body : Str} {j : Json} : (∀ l ∈ before, OtherHeader l) → (∀ l ∈ after, HeaderLine l) →
      tree body = some j → c.In j → Sends tree c (withJson before after body)
  | form {c : Call} {headers : List Str} {boundary name file content : Str} {ctype : Option Str} : (∀ l ∈ headers, OtherHeader l) → GoodBoundary boundary →
      Sendable boundary ⟨c!"filename", none, none, name⟩ → Sendable boundary ⟨c!"file", some file, ctype, content⟩ →
      c = .upload name (some content) ∨ c = .update name (some content) →
      Sends tree c (withForm headers boundary [⟨c!"filename", none, none, name⟩, ⟨c!"file", some file, ctype, content⟩])

/-- A body that cannot be read. -/
inductive Spec.Unreadable (tree : Str → Option Json) : Str × Str → Str → Prop where
  | noJson {endpoint : Str × Str} {body : Str} : endpoint ∈ fileRoutes → tree body = none → Unreadable tree endpoint body
  | file {endpoint : Str × Str} {body : Str} {j : Json} : endpoint = (c!"POST", c!"/upload-js") ∨ endpoint = (c!"PUT", c!"/update-js") →
      tree body = some j → BodyWrongFile j → Unreadable tree endpoint body
  | name {body : Str} {j : Json} : tree body = some j → BodyWrongName j → Unreadable tree (c!"DELETE", c!"/delete-js") body

/-- The request is one in which this happens, at a server with this configuration. -/
inductive Spec.Is (X : Ext) (cfg : Config) (tree : Str → Option Json) : Event → Str → Prop where
  | call {c : Call} {query : Option Str} {version rest : Str} : Line c.endpoint.1 c.endpoint.2 query version → Sends tree c rest →
      passes X (requestText c.endpoint.1 c.endpoint.2 query version rest) cfg.adminToken = .ok true →
      Is X cfg tree (.call c) (requestText c.endpoint.1 c.endpoint.2 query version rest)
  | unreadable {method path version body : Str} {query : Option Str} {before after : List Str} : Line method path query version →
      (∀ l ∈ before, OtherHeader l) → (∀ l ∈ after, HeaderLine l) → Unreadable tree (method, path) body →
      passes X (requestText method path query version (withJson before after body)) cfg.adminToken = .ok true →
      Is X cfg tree .unreadable (requestText method path query version (withJson before after body))
  | refused {method path version rest : Str} {query : Option Str} : Line method path query version → (method, path) ∈ fileRoutes →
      passes X (requestText method path query version rest) cfg.adminToken = .ok false → Is X cfg tree .refused (requestText method path query version rest)
  | elsewhere {method path version rest : Str} {query : Option Str} : Line method path query version → (method, path) ∉ fileRoutes →
      Is X cfg tree .elsewhere (requestText method path query version rest)

/-- A server whose directory of functions is there, with no directory in it that has the name of a file of functions. -/
structure Spec.Ready (cfg : Config) (dir : Path) (fs : Fs) : Prop where
  found : fs.resolve cfg.cwd cfg.hooksDir = some dir
  isDir : fs.isDir dir = true
  noDir : ∀ name, FileName name → fs.isDir (dir ++ [name]) = false

/-- The code in the server's files. -/
noncomputable def Spec.storeOf (dir : Path) (fs : Fs) : Store := by
  classical
  exact fun name => if FileName name then fs.read (dir ++ [name]) else none

/-- The statuses of the answers to requests, one after the other. -/
def Spec.statusesOf (X : Ext) (H : HttpExt) (cfg : Config) : List Str → Site → List (Option Nat)
  | [], _ => []
  | r :: rs, s => (handle X H cfg r s).1.map (·.status) :: statusesOf X H cfg rs (handle X H cfg r s).2

/-- The code in a call. -/
def Spec.Event.code : Event → Option Str
  | .call (.upload _ code) => code
  | .call (.update _ code) => code
  | _ => none

/-- The name in a call. -/
def Spec.Event.name : Event → Option Str
  | .call (.upload name _) => some name
  | .call (.update name _) => some name
  | .call (.delete name) => some name
  | _ => none

open FileStore.Spec

/-! ### Names -/

theorem endsWith_js (name : Str) : Str.endsWith name c!".js" = true ↔ ∃ stem, name = stem ++ c!".js" := by
  unfold Str.endsWith
  rw [startsWith_iff]
  constructor
  · rintro ⟨r, hr⟩
    exact ⟨r.reverse, by rw [← List.reverse_reverse name, ← hr]; simp⟩
  · rintro ⟨stem, rfl⟩
    exact ⟨stem.reverse, by simp⟩

theorem walk_onto (fs : Fs) (f : Str) (hf : f ≠ c!"..") : ∀ (cs : List Str) (cur d : Path), walk fs cur cs = some d → fs.isDir d = true → walk fs cur (cs ++ [f]) = some (d ++ [f])
  | [], cur, d, h, _ => by
    simp only [walk, Option.some.injEq] at h
    subst h
    simp [walk, hf]
  | c :: cs, cur, d, h, hd => by
    simp only [List.cons_append, walk] at h ⊢
    by_cases hc : c = c!".."
    · rw [if_pos hc] at h ⊢
      exact walk_onto fs f hf cs _ d h hd
    · rw [if_neg hc] at h ⊢
      rw [if_neg (by simp)]
      cases cs with
      | nil =>
        simp only [List.isEmpty_nil, if_true, Option.some.injEq] at h
        subst h
        rw [if_pos hd]
        simp [walk, hf]
      | cons c' cs =>
        simp only [List.isEmpty_cons, Bool.false_eq_true, if_false] at h
        split at h
        · rename_i hdir
          rw [if_pos hdir]
          exact walk_onto fs f hf _ _ d h hd
        · simp at h

theorem join_components (base name : Str) (h : ∀ x ∈ name, x ≠ '/') (hn : name ≠ []) (hd : name ≠ c!".") :
    Str.startsWith (joinPath base name) c!"/" = Str.startsWith base c!"/" ∧ components (joinPath base name) = components base ++ [name] := by
  have hs : Str.startsWith name c!"/" = false := by
    rw [Bool.eq_false_iff]
    intro hh
    obtain ⟨r, rfl⟩ := (startsWith_slash name).1 hh
    exact h '/' (by simp) rfl
  unfold joinPath
  simp only [hs, Bool.false_or]
  by_cases hb : base = []
  · subst hb
    simp only [List.isEmpty_nil, if_true, hs]
    refine ⟨rfl, ?_⟩
    rw [components_plain name h hn hd]
    rfl
  · have hbe : base.isEmpty = false := by simpa using hb
    simp only [hbe, Bool.false_eq_true, if_false]
    by_cases he : Str.endsWith base c!"/" = true
    · rw [if_pos he]
      refine ⟨startsWith_slash_append base name hb, ?_⟩
      obtain ⟨b, rfl⟩ : ∃ b, base = b ++ ['/'] := by
        unfold Str.endsWith at he
        rw [startsWith_iff] at he
        obtain ⟨r, hr⟩ := he
        exact ⟨r.reverse, by rw [← List.reverse_reverse base, ← hr]; simp⟩
      rw [List.append_assoc, List.singleton_append, components_slash b name h hn hd, components_trailing]
    · rw [if_neg he]
      have hj : base ++ c!"/" ++ name = base ++ '/' :: name := by simp
      rw [hj]
      exact ⟨startsWith_slash_append base _ hb, components_slash base name h hn hd⟩

theorem resolve_file {cfg : Config} {dir : Path} {fs : Fs} (hr : Ready cfg dir fs) {name : Str} (hn : FileName name) :
    fs.resolve cfg.cwd (joinPath cfg.hooksDir name) = some (dir ++ [name]) := by
  obtain ⟨h1, h2, h3⟩ := js_name ((endsWith_js name).2 hn.1)
  obtain ⟨e1, e2⟩ := join_components cfg.hooksDir name (fun x hx h => hn.2 (h ▸ hx)) h1 h2
  have hf := hr.found
  unfold Fs.resolve at hf ⊢
  rw [e1, e2]
  exact walk_onto fs name h3 _ _ dir hf hr.isDir

theorem ready_dirs {cfg : Config} {dir : Path} {fs fs' : Fs} (hr : Ready cfg dir fs) (h : fs'.dirs = fs.dirs) : Ready cfg dir fs' := by
  have hd : ∀ p, fs'.isDir p = fs.isDir p := by intro p; unfold Fs.isDir; rw [h]
  exact ⟨by rw [resolve_dirs h]; exact hr.found, by rw [hd]; exact hr.isDir, fun n hn => by rw [hd]; exact hr.noDir n hn⟩

theorem ready_hooks {cfg : Config} {dir : Path} {fs : Fs} (hr : Ready cfg dir fs) : fs.exists cfg.cwd cfg.hooksDir = true := by
  unfold Fs.exists; rw [hr.found]; simp [hr.isDir]

theorem storeOf_file {dir : Path} {fs : Fs} {name : Str} (h : FileName name) : storeOf dir fs name = fs.read (dir ++ [name]) := by
  unfold storeOf; simp only [if_pos h]

theorem storeOf_other {dir : Path} {fs : Fs} {name : Str} (h : ¬ FileName name) : storeOf dir fs name = none := by
  unfold storeOf; simp only [if_neg h]

theorem storeOf_files {dir : Path} {fs fs' : Fs} (h : fs'.files = fs.files) : storeOf dir fs' = storeOf dir fs := by
  funext n
  by_cases hn : FileName n
  · rw [storeOf_file hn, storeOf_file hn, read_of_files h]
  · rw [storeOf_other hn, storeOf_other hn]

theorem storeOf_write {dir : Path} {fs : Fs} {name code : Str} (hn : FileName name) : storeOf dir (fs.write (dir ++ [name]) code) = (storeOf dir fs).set name (some code) := by
  funext n
  unfold Store.set
  by_cases h : FileName n
  · rw [storeOf_file h, storeOf_file h, read_write]
    by_cases e : n = name
    · simp [e]
    · rw [if_neg (by simpa using e), if_neg e]
  · rw [storeOf_other h, storeOf_other h, if_neg (by rintro rfl; exact h hn)]

theorem storeOf_remove {dir : Path} {fs : Fs} {name : Str} (hn : FileName name) : storeOf dir (fs.remove (dir ++ [name])) = (storeOf dir fs).set name none := by
  funext n
  unfold Store.set
  by_cases h : FileName n
  · rw [storeOf_file h, storeOf_file h, read_remove]
    by_cases e : n = name
    · simp [e]
    · rw [if_neg (by simpa using e), if_neg e]
  · rw [storeOf_other h, storeOf_other h]
    split <;> rfl

/-! ### Requests -/

theorem contentType_skip (X : Ext) (hX : LowersWords X) (rest : Str) : ∀ (headers : List Str), (∀ l ∈ headers, OtherHeader l) →
    contentType X (Str.lines ((headers.map (· ++ c!"\r\n")).flatten ++ rest)) = contentType X (Str.lines rest)
  | [], _ => rfl
  | l :: ls, h => by
    obtain ⟨_, h2, h3⟩ := h l (by simp)
    have hw : Str.startsWith (X.lower l) c!"content-type:" = false := by
      rw [Bool.eq_false_iff]
      intro hh
      exact h3 ((word_front X hX l c!"Content-Type:" (by decide)).1 hh)
    rw [List.map_cons, List.flatten_cons, List.append_assoc, lines_crlf _ _ fun c hc => (h2 c hc).2]
    simp only [contentType, hw, Bool.false_eq_true, if_false]
    exact contentType_skip X hX rest ls fun m hm => h m (by simp [hm])

/-- A request line. -/
def lineText (method path : Str) (query : Option Str) (version : Str) : Str := method ++ c!" " ++ path ++ mark query ++ c!" " ++ version

theorem text_line (method path : Str) (query : Option Str) (version rest : Str) : requestText method path query version rest = lineText method path query version ++ c!"\r\n" ++ rest := by
  unfold requestText lineText; simp

theorem ws_cr {c : Char} (h : Str.isWs c = false) : c ≠ '\r' := by rintro rfl; revert h; decide

theorem line_other {method path version : Str} {query : Option Str} (hl : Line method path query version) (hf : (method, path) ∈ fileRoutes) :
    OtherHeader (lineText method path query version) := by
  obtain ⟨hm, hp, hq, hqs, hv⟩ := hl
  refine ⟨by unfold lineText; simp, ?_, ?_⟩
  · intro c hc
    have : Str.isWs c = false ∨ c = ' ' := by
      unfold lineText at hc
      simp only [List.mem_append, List.mem_singleton] at hc
      rcases hc with ((((hc | hc) | hc) | hc) | hc) | hc
      · exact .inl (hm.2 c hc)
      · exact .inr hc
      · exact .inl (hp.2 c hc)
      · cases query with
        | none => simp [mark] at hc
        | some q =>
          rcases List.mem_cons.1 hc with rfl | hc
          · exact .inl (by decide)
          · exact .inl (hqs q rfl c hc)
      · exact .inr hc
      · exact .inl (hv.2 c hc)
    rcases this with h | rfl
    · exact ⟨ws_cr h, ws_nl h⟩
    · decide
  · rintro ⟨a, r, h, hs⟩
    have key : ∀ (m t : Str), m ∈ [c!"POST", c!"PUT", c!"DELETE"] → m ++ t = a ++ r → False := by
      intro m t hm hh
      have hlen : a.length = 13 := by
        have := congrArg List.length hs
        simpa using this
      cases a with
      | nil => simp at hlen
      | cons x a =>
        have hx : Str.asciiLowC x = 'c' := by
          have := congrArg List.head? hs
          have h2 : Str.asciiLowC x = Str.asciiLowC 'C' := by simpa using this
          rw [h2]; decide
        simp only [List.mem_cons, List.not_mem_nil, or_false] at hm
        rcases hm with rfl | rfl | rfl <;> simp only [List.cons_append, List.cons.injEq] at hh <;> rw [← hh.1] at hx <;> revert hx <;> decide
    unfold lineText at h
    simp only [List.append_assoc] at h
    refine key method _ ?_ h
    simp only [fileRoutes, List.mem_cons, Prod.mk.injEq, List.not_mem_nil, or_false] at hf
    rcases hf with ⟨rfl, _⟩ | ⟨rfl, _⟩ | ⟨rfl, _⟩ <;> decide

theorem json_body {α : Type} (decode : Str → Except Str α) {method path version : Str} {query : Option Str} (hl : Line method path query version) (hf : (method, path) ∈ fileRoutes)
    {before after : List Str} {body : Str} (hb : ∀ l ∈ before, OtherHeader l) (ha : ∀ l ∈ after, HeaderLine l) :
    jsonBody decode (requestText method path query version (withJson before after body)) = match decode body with
      | .ok a => .ok a
      | .error e => fail "Invalid JSON: {}" [e] := by
  have ho := line_other hl hf
  obtain ⟨t, ht⟩ := HttpQuery.headers_end body (lineText method path query version) (before ++ c!"Content-Type: application/json" :: after) ⟨ho.1, ho.2.1⟩ (by
    intro l hm
    rcases List.mem_append.1 hm with hm | hm
    · exact ⟨(hb l hm).1, (hb l hm).2.1⟩
    · rcases List.mem_cons.1 hm with rfl | hm
      · exact ⟨by decide, by decide⟩
      · exact ha l hm)
  unfold jsonBody
  have e : requestText method path query version (withJson before after body) =
      lineText method path query version ++ c!"\r\n" ++ (before ++ c!"Content-Type: application/json" :: after).flatMap (· ++ c!"\r\n") ++ c!"\r\n" ++ body := by
    rw [text_line]; unfold withJson; simp
  rw [e, ht]
  dsimp only
  cases decode body <;> rfl

theorem json_js (X : Ext) (hX : LowersWords X) (H : HttpExt) {method path version : Str} {query : Option Str} (hl : Line method path query version) (hf : (method, path) ∈ fileRoutes)
    {before after : List Str} {body : Str} (hb : ∀ l ∈ before, OtherHeader l) (ha : ∀ l ∈ after, HeaderLine l) :
    jsRequest X H (requestText method path query version (withJson before after body)) = match H.decodeJs body with
      | .ok a => .ok a
      | .error e => fail "Invalid JSON: {}" [e] := by
  have hct : contentType X (Str.lines (requestText method path query version (withJson before after body))) = some c!"application/json" := by
    have e : requestText method path query version (withJson before after body) =
        (((lineText method path query version :: before).map (· ++ c!"\r\n")).flatten ++ (c!"Content-Type: application/json" ++ c!"\r\n" ++ (after.flatMap (· ++ c!"\r\n") ++ c!"\r\n" ++ body))) := by
      rw [text_line]; unfold withJson; simp [List.flatMap_def]
    have hw : Str.startsWith (X.lower c!"Content-Type: application/json") c!"content-type:" = true := by
      rw [hX _ _ (by decide)]; rfl
    rw [e, contentType_skip X hX _ _ (by
      intro l hm
      rcases List.mem_cons.1 hm with rfl | hm
      · exact line_other hl hf
      · exact hb l hm), lines_crlf _ _ (by decide)]
    simp only [contentType, hw, if_true]
    decide
  have hw : Str.startsWith (X.lower c!"application/json") c!"multipart/form-data" = false := by
    rw [hX _ _ (by decide)]; rfl
  unfold jsRequest
  simp only [hct, Option.getD_some, hw, Bool.false_eq_true, if_false]
  rw [json_body H.decodeJs hl hf hb ha (body := body)]
  cases H.decodeJs body <;> rfl

theorem sends_js (X : Ext) (hX : LowersWords X) (H : HttpExt) {tree : Str → Option Json} (hH : Reads H tree) {c : Call} {name : Str} {code : Option Str}
    (hc : c = .upload name code ∨ c = .update name code) {query : Option Str} {version rest : Str} (hl : Line c.endpoint.1 c.endpoint.2 query version) (h : Sends tree c rest) :
    ∃ q, jsRequest X H (requestText c.endpoint.1 c.endpoint.2 query version rest) = .ok q ∧ q.filename = name ∧ q.code = code := by
  have hf : (c.endpoint.1, c.endpoint.2) ∈ fileRoutes := by rcases hc with rfl | rfl <;> simp only [Call.endpoint] <;> decide
  cases h with
  | @json before after body ms hb ha ht hin =>
    have hg : BodyGivesFile ms name code := by rcases hc with rfl | rfl <;> exact hin
    obtain ⟨q, hq, h1, h2⟩ := body_gives hg
    refine ⟨q, ?_, h1, h2⟩
    rw [json_js X hX H hl hf hb ha, hH.good body _ q ht hq]
  | @form headers boundary name' file content ctype hh hb hs1 hs2 hcc =>
    have e : name' = name ∧ some content = code := by
      rcases hc with rfl | rfl <;> rcases hcc with hcc | hcc <;> cases hcc <;> exact ⟨rfl, rfl⟩
    obtain ⟨rfl, rfl⟩ := e
    have := C59_upload_received_partial X hX H (lineText c.endpoint.1 c.endpoint.2 query version :: headers) (by
      intro l hm
      rcases List.mem_cons.1 hm with rfl | hm
      · exact line_other hl hf
      · exact hh l hm) boundary hb name' file ctype content hs1 hs2
    refine ⟨_, Eq.trans ?_ this, rfl, rfl⟩
    congr 1
    rw [text_line]
    unfold withForm formRequest
    simp

/-! ### One request -/

theorem validate_cases (X : Ext) (H : HttpExt) (code : Str) (hp : ∀ p, validateJs X H code ≠ .error (.panic p)) :
    (IsFunction code ∧ ∃ r, validateJs X H code = .ok r) ∨ (¬ IsFunction code ∧ ∃ m a p, validateJs X H code = .error (.err m a p)) := by
  cases hv : validateJs X H code with
  | ok r => exact .inl ⟨⟨r.1, validate_parse (f := r.1) (b := r.2) (by rw [hv])⟩, r, rfl⟩
  | error e =>
    cases e with
    | panic p => exact absurd hv (hp p)
    | err m a p =>
      refine .inr ⟨?_, m, a, p, rfl⟩
      rintro ⟨f, hf⟩
      unfold validateJs at hv
      rw [hf] at hv
      simp only at hv
      cases he : f.example_ with
      | none => rw [he] at hv; simp at hv
      | some e =>
        rw [he] at hv
        have : ∀ m a p, exampleHolds X H f e ≠ .error (.err m a p) := by
          intro m a p h
          unfold exampleHolds at h
          split at h
          · simp at h
          · split at h
            · simp at h
            · split at h
              · simp only at h
                split at h
                · simp at h
                · simp at h
                · split at h <;> simp at h
              · simp at h
        cases hx : exampleHolds X H f e with
        | ok b => simp [hx, bind, Except.bind, pure, Except.pure] at hv
        | error e' => simp only [hx, bind, Except.bind, Except.error.injEq] at hv; rw [hv] at hx; exact this _ _ _ hx

theorem save_file {H : HttpExt} {cfg : Config} {dir : Path} {fs : Fs} (hr : Ready cfg dir fs) (hio : ∀ f, H.ioError f = false) {name code : Str} (hn : FileName name) :
    saveJs H cfg fs name code = (fs.write (dir ++ [name]) code, true) := by
  unfold saveJs ensureHooks
  rw [if_pos (ready_hooks hr)]
  simp only [writeJs, resolve_file hr hn, hr.noDir name hn, hio, Bool.or_self, Bool.false_eq_true, if_false]

theorem delete_file {H : HttpExt} {cfg : Config} {dir : Path} {fs : Fs} (hr : Ready cfg dir fs) (hio : ∀ f, H.ioError f = false) {name : Str} (hn : FileName name) :
    deleteJs H cfg fs name = if (fs.read (dir ++ [name])).isSome then (fs.remove (dir ++ [name]), true) else (fs, false) := by
  unfold deleteJs
  simp only [resolve_file hr hn, hio, Bool.not_false, Bool.and_true]

theorem exists_file {cfg : Config} {dir : Path} {fs : Fs} (hr : Ready cfg dir fs) {name : Str} (hn : FileName name) :
    fs.exists cfg.cwd (joinPath cfg.hooksDir name) = (fs.read (dir ++ [name])).isSome := by
  unfold Fs.exists
  rw [resolve_file hr hn]
  simp [hr.noDir name hn]

/-- What one request does to the files. -/
theorem step (X : Ext) (hX : LowersWords X) (H : HttpExt) (tree : Str → Option Json) (hH : Reads H tree) (hio : ∀ f, H.ioError f = false) (cfg : Config) (dir : Path) (s : Site)
    (hr : Ready cfg dir s.fs) (e : Event) (r : Str) (his : Is X cfg tree e r)
    (hname : ∀ name, e.name = some name → '/' ∉ name)
    (hp : ∀ code, e.code = some code → ∀ p, validateJs X H code ≠ .error (.panic p)) :
    Reacts (storeOf dir s.fs) e ((handle X H cfg r s).1.map (·.status)) (storeOf dir (handle X H cfg r s).2.fs) ∧ (handle X H cfg r s).2.fs.dirs = s.fs.dirs := by
  have store : ∀ name code, FileName name → (∀ c, code = some c → ∀ p, validateJs X H c ≠ .error (.panic p)) →
      (∃ c, code = some c ∧ IsFunction c ∧ storeJs X H cfg s name code = reply { s with fs := s.fs.write (dir ++ [name]) c } 200) ∨
      ((∀ c, code = some c → ¬ IsFunction c) ∧ storeJs X H cfg s name code = reply s 400) := by
    intro name code hn hp
    cases code with
    | none => exact .inr ⟨by simp, rfl⟩
    | some c =>
      unfold storeJs
      rcases validate_cases X H c (hp c rfl) with ⟨hf, v, hv⟩ | ⟨hf, m, a, p, hv⟩
      · refine .inl ⟨c, rfl, hf, ?_⟩
        simp only [hv, guarded, save_file hr hio hn]
      · refine .inr ⟨by rintro c' h; injection h with h; rw [← h]; exact hf, ?_⟩
        simp only [hv, guarded]
  cases his with
  | @call c query version rest hl hs hpass =>
    cases c with
    | upload name code =>
      obtain ⟨q, hq, h1, h2⟩ := sends_js X hX H hH (.inl rfl) hl hs
      rw [handle_request X H cfg s hl rest]
      have e1 : route X H cfg (Call.upload name code).endpoint.1 (Call.upload name code).endpoint.2 (requestText (Call.upload name code).endpoint.1 (Call.upload name code).endpoint.2 query version rest) s =
          uploadJs X H cfg (requestText (Call.upload name code).endpoint.1 (Call.upload name code).endpoint.2 query version rest) s := rfl
      rw [e1]
      unfold uploadJs
      rw [withToken_pass X _ _ s _ hpass, hq]
      simp only [guarded, h1, h2]
      by_cases hn : Str.endsWith name c!".js" = true
      · rw [if_pos hn]
        have hn' : FileName name := ⟨(endsWith_js name).1 hn, hname name rfl⟩
        rcases store name code hn' hp with ⟨c, rfl, hf, h⟩ | ⟨hf, h⟩
        · rw [h]
          simp only [reply, Option.map_some]
          rw [storeOf_write hn']
          exact ⟨.uploaded hn' hf, rfl⟩
        · rw [h]
          exact ⟨.uploadCode hf, rfl⟩
      · rw [if_neg hn]
        exact ⟨.uploadName (fun h => hn ((endsWith_js name).2 h)), rfl⟩
    | update name code =>
      obtain ⟨q, hq, h1, h2⟩ := sends_js X hX H hH (.inr rfl) hl hs
      rw [handle_request X H cfg s hl rest]
      have e1 : route X H cfg (Call.update name code).endpoint.1 (Call.update name code).endpoint.2 (requestText (Call.update name code).endpoint.1 (Call.update name code).endpoint.2 query version rest) s =
          updateJs X H cfg (requestText (Call.update name code).endpoint.1 (Call.update name code).endpoint.2 query version rest) s := rfl
      rw [e1]
      unfold updateJs
      rw [withToken_pass X _ _ s _ hpass, hq]
      simp only [guarded, h1, h2]
      by_cases hn : Str.endsWith name c!".js" = true
      · have hn' : FileName name := ⟨(endsWith_js name).1 hn, hname name rfl⟩
        rw [if_neg (by simp [hn]), exists_file hr hn']
        have hst := storeOf_file (dir := dir) (fs := s.fs) hn'
        cases hread : s.fs.read (dir ++ [name]) with
        | none =>
          rw [if_pos (by simp)]
          exact ⟨.updateMissing hn' (hst.trans hread), rfl⟩
        | some old =>
          rw [if_neg (by simp)]
          rcases store name code hn' hp with ⟨c, rfl, hf, h⟩ | ⟨hf, h⟩
          · rw [h]
            simp only [reply, Option.map_some]
            rw [storeOf_write hn']
            exact ⟨.updated hn' (hst.trans hread) hf, rfl⟩
          · rw [h]
            exact ⟨.updateCode (hst.trans hread) hf, rfl⟩
      · rw [if_pos (by simpa using hn)]
        exact ⟨.updateName (fun h => hn ((endsWith_js name).2 h)), rfl⟩
    | delete name =>
      have hf : ((Call.delete name).endpoint.1, (Call.delete name).endpoint.2) ∈ fileRoutes := by simp only [Call.endpoint]; decide
      rw [handle_request X H cfg s hl rest]
      have e1 : route X H cfg (Call.delete name).endpoint.1 (Call.delete name).endpoint.2 (requestText (Call.delete name).endpoint.1 (Call.delete name).endpoint.2 query version rest) s =
          deleteJsRequest X H cfg (requestText (Call.delete name).endpoint.1 (Call.delete name).endpoint.2 query version rest) s := rfl
      rw [e1]
      unfold deleteJsRequest
      rw [withToken_pass X _ _ s _ hpass]
      cases hs with
      | form _ _ _ _ hcc => rcases hcc with hcc | hcc <;> cases hcc
      | @json before after body ms hb ha ht hin =>
        rw [json_body H.decodeDelete hl hf hb ha, hH.goodDelete body _ name ht (body_name hin)]
        simp only [guarded]
        by_cases hn : Str.endsWith name c!".js" = true
        · have hn' : FileName name := ⟨(endsWith_js name).1 hn, hname name rfl⟩
          rw [if_neg (by simp [hn]), delete_file hr hio hn']
          have hst := storeOf_file (dir := dir) (fs := s.fs) hn'
          cases hread : s.fs.read (dir ++ [name]) with
          | none => exact ⟨.deleteMissing hn' (hst.trans hread), rfl⟩
          | some old =>
            simp only [Option.isSome_some, if_true, reply, Option.map_some]
            rw [storeOf_remove hn']
            exact ⟨.deleted hn' (hst.trans hread), rfl⟩
        · rw [if_pos (by simpa using hn)]
          exact ⟨.deleteName (fun h => hn ((endsWith_js name).2 h)), rfl⟩
  | @unreadable method path version body query before after hl hb ha hu hpass =>
    rw [handle_request X H cfg s hl]
    have fin : ∀ o : Outcome, o = reply s 400 → Reacts (storeOf dir s.fs) Event.unreadable (o.1.map (·.status)) (storeOf dir o.2.fs) ∧ o.2.fs.dirs = s.fs.dirs := by
      rintro o rfl; exact ⟨.unreadable, rfl⟩
    apply fin
    have asFile : (method, path) = (c!"POST", c!"/upload-js") ∨ (method, path) = (c!"PUT", c!"/update-js") → (∃ e, H.decodeJs body = .error e) →
        route X H cfg method path (requestText method path query version (withJson before after body)) s = reply s 400 := by
      rintro hm ⟨e, he⟩
      have hf : (method, path) ∈ fileRoutes := by rcases hm with hm | hm <;> rw [hm] <;> decide
      have hj := json_js X hX H hl hf hb ha (body := body)
      rw [he] at hj
      rcases hm with hm | hm <;> simp only [Prod.mk.injEq] at hm <;> obtain ⟨rfl, rfl⟩ := hm
      · show uploadJs X H cfg _ s = _
        unfold uploadJs
        rw [withToken_pass X _ _ s _ hpass, hj]
        rfl
      · show updateJs X H cfg _ s = _
        unfold updateJs
        rw [withToken_pass X _ _ s _ hpass, hj]
        rfl
    have asName : (method, path) = (c!"DELETE", c!"/delete-js") → (∃ e, H.decodeDelete body = .error e) →
        route X H cfg method path (requestText method path query version (withJson before after body)) s = reply s 400 := by
      rintro hm ⟨e, he⟩
      have hf : (method, path) ∈ fileRoutes := by rw [hm]; decide
      have hj := json_body H.decodeDelete hl hf hb ha (body := body)
      rw [he] at hj
      simp only [Prod.mk.injEq] at hm
      obtain ⟨rfl, rfl⟩ := hm
      show deleteJsRequest X H cfg _ s = _
      unfold deleteJsRequest
      rw [withToken_pass X _ _ s _ hpass, hj]
      rfl
    generalize hmp : (method, path) = mp at hu asFile asName
    cases hu with
    | noJson hf ht =>
      simp only [fileRoutes, List.mem_cons, List.not_mem_nil, or_false] at hf
      rcases hf with h | h | h
      · exact asFile (.inl h) (hH.noJson body ht)
      · exact asFile (.inr h) (hH.noJson body ht)
      · exact asName h (hH.noJsonDelete body ht)
    | file hm ht hw => exact asFile hm (hH.bad body _ ht (body_wrong hw))
    | name ht hw => exact asName rfl (hH.badDelete body _ ht (body_wrong_name hw))
  | @refused method path version rest query hl hf hpass =>
    rw [handle_request X H cfg s hl rest]
    have : route X H cfg method path (requestText method path query version rest) s = reply s 401 := by
      simp only [fileRoutes, List.mem_cons, Prod.mk.injEq, List.not_mem_nil, or_false] at hf
      rcases hf with ⟨rfl, rfl⟩ | ⟨rfl, rfl⟩ | ⟨rfl, rfl⟩
      · show uploadJs X H cfg _ s = _
        unfold uploadJs
        exact withToken_401 X _ _ s _ hpass
      · show updateJs X H cfg _ s = _
        unfold updateJs
        exact withToken_401 X _ _ s _ hpass
      · show deleteJsRequest X H cfg _ s = _
        unfold deleteJsRequest
        exact withToken_401 X _ _ s _ hpass
    rw [this]
    exact ⟨.refused, rfl⟩
  | @elsewhere method path version rest query hl hf =>
    have hc := C110_changes X H cfg s hl rest
    rw [storeOf_files (hc.files hf)]
    refine ⟨.elsewhere, ?_⟩
    by_cases hd : (method, path) ∈ dirRoutes
    · have hm : method = c!"POST" ∧ path = c!"/reload-hooks" := by
        simp only [dirRoutes, fileRoutes, List.mem_cons, Prod.mk.injEq, List.not_mem_nil, or_false, not_or] at hd hf
        tauto
      obtain ⟨rfl, rfl⟩ := hm
      rw [handle_request X H cfg s hl rest]
      have e1 : route X H cfg c!"POST" c!"/reload-hooks" (requestText c!"POST" c!"/reload-hooks" query version rest) s =
        reloadHooks X H cfg (requestText c!"POST" c!"/reload-hooks" query version rest) s := rfl
      rw [e1]
      unfold reloadHooks
      rcases withToken_either X (requestText c!"POST" c!"/reload-hooks" query version rest) cfg.adminToken s _ with h | h
      · rw [h]
      · rw [h, if_pos (ready_hooks hr)]
        split_ifs
        · cases registerAll X H s.reg (loadJs H cfg s.fs) with
          | mk r b => cases b <;> rfl
        · rfl
    · exact hc.dirs hd

/-! ### Histories -/

/-- **C119.** Over every history of requests, the function files are a map from names to code: an upload of a function stores exactly the code that was sent, an update does so if there is a
file, a deletion removes the file, each with the status that goes with it, and nothing else changes any file, neither calls that are refused or cannot be read nor any other request. -/
theorem C119_history (X : Ext) (hX : LowersWords X) (H : HttpExt) (tree : Str → Option Json) (hH : Reads H tree) (hio : ∀ f, H.ioError f = false) (cfg : Config) (dir : Path)
    (es : List Event) (rs : List Str) (his : List.Forall₂ (Is X cfg tree) es rs)
    (hname : ∀ e ∈ es, ∀ name, e.name = some name → '/' ∉ name)
    (hp : ∀ e ∈ es, ∀ code, e.code = some code → ∀ p, validateJs X H code ≠ .error (.panic p)) (s : Site) (hr : Ready cfg dir s.fs) :
    Runs (storeOf dir s.fs) es (statusesOf X H cfg rs s) (storeOf dir (serve X H cfg rs s).fs) := by
  induction his generalizing s with
  | nil => exact .nil
  | @cons e r es rs h _ ih =>
    obtain ⟨h1, h2⟩ := step X hX H tree hH hio cfg dir s hr e r h (hname e (by simp)) (hp e (by simp))
    exact .cons h1 (ih (fun e he => hname e (by simp [he])) (fun e he => hp e (by simp [he])) _ (ready_dirs hr h2))

/-- A store answers in one way, what is elsewhere apart: so the history above determines every file and every status. -/
theorem C119_determined {st : Store} {e : Event} {n n' : Option Nat} {st1 st2 : Store} (h : Reacts st e n st1) (h' : Reacts st e n' st2) : st1 = st2 ∧ (n = n' ∨ e = .elsewhere) := by
  cases h <;> cases h' <;> simp_all [FileName]

theorem C119_runs_determined {st : Store} {es : List Event} {ns ns' : List (Option Nat)} {st1 st2 : Store} (h : Runs st es ns st1) (h' : Runs st es ns' st2) : st1 = st2 := by
  induction h generalizing ns' st2 with
  | nil => cases h'; rfl
  | cons ha _ ih =>
    cases h' with
    | cons ha' hr' =>
      obtain ⟨rfl, _⟩ := C119_determined ha ha'
      exact ih hr'

/-- The last thing stored under a name, in the store: what was last uploaded is what is there, until it is updated, deleted or uploaded again. -/
theorem C119_last {st st' : Store} {name code : Str} {es : List Event} {ns : List (Option Nat)} (h : Runs (st.set name (some code)) es ns st')
    (hno : ∀ e ∈ es, ∀ c, e ≠ .call (.upload name c) ∧ e ≠ .call (.update name c) ∧ e ≠ .call (.delete name)) : st' name = some code := by
  have key : ∀ {st st' : Store} {es : List Event} {ns : List (Option Nat)}, Runs st es ns st' → st name = some code →
      (∀ e ∈ es, ∀ c, e ≠ .call (.upload name c) ∧ e ≠ .call (.update name c) ∧ e ≠ .call (.delete name)) → st' name = some code := by
    intro st st' es ns h
    induction h with
    | nil => exact fun h _ => h
    | @cons st st1 st2 e es n ns ha _ ih =>
      intro h0 hno
      refine ih ?_ fun e he => hno e (by simp [he])
      have hh := hno e (by simp)
      cases ha <;> first | exact h0 | (unfold Store.set; rw [if_neg (by rintro rfl; simp at hh)]; exact h0)
  exact key h (by simp [Store.set]) hno

/-! ### A history -/

/-- A reader of two bodies. -/
def aTree (b : Str) : Option Json :=
  if b = c!"upload" then some (.obj [(c!"filename", .str c!"x.js"), (c!"js_code", .str aFunction)]) else if b = c!"delete" then some (.obj [(c!"filename", .str c!"x.js")]) else none

/-- A server that reads bodies so. -/
def aServer (H : HttpExt) : HttpExt := { H with
  decodeJs := fun b => match (aTree b).bind jsTree with | some q => .ok q | none => .error []
  decodeDelete := fun b => match (aTree b).bind deleteTree with | some q => .ok q | none => .error []
  ioError := fun _ => false }

theorem aServer_reads (H : HttpExt) : Reads (aServer H) aTree where
  good := by intro body j q h1 h2; simp [aServer, h1, h2]
  bad := by intro body j h1 h2; simp [aServer, h1, h2]
  noJson := by intro body h; simp [aServer, h]
  goodDelete := by intro body j q h1 h2; simp [aServer, h1, h2]
  badDelete := by intro body j h1 h2; simp [aServer, h1, h2]
  noJsonDelete := by intro body h; simp [aServer, h]

/-- Request lines. -/
theorem aLine {m p : Str} (h : Word m ∧ Word p ∧ '?' ∉ p) : Line m p none c!"HTTP/1.1" := ⟨h.1, h.2.1, h.2.2, by simp, by decide, by decide⟩

/-- An upload, a look at the health page, a deletion, one more that finds nothing, and a body that is no JSON. -/
def aHistory : List Event := [.call (.upload c!"x.js" (some aFunction)), .elsewhere, .call (.delete c!"x.js"), .call (.delete c!"x.js"), .unreadable]

/-- Their requests. -/
def theRequests : List Str := [
  requestText c!"POST" c!"/upload-js" none c!"HTTP/1.1" (withJson [c!"Host: a"] [c!"Content-Length: 6"] c!"upload"),
  requestText c!"GET" c!"/health" none c!"HTTP/1.1" c!"\r\n",
  requestText c!"DELETE" c!"/delete-js" none c!"HTTP/1.1" (withJson [c!"Host: a"] [] c!"delete"),
  requestText c!"DELETE" c!"/delete-js" none c!"HTTP/1.1" (withJson [] [] c!"delete"),
  requestText c!"PUT" c!"/update-js" none c!"HTTP/1.1" (withJson [] [] c!"code")]

theorem theRequests_are (X : Ext) : List.Forall₂ (Is X open_ aTree) aHistory theRequests := by
  have other : OtherHeader c!"Host: a" := ⟨by decide, by decide, by
    rintro ⟨a, r, h, hs⟩
    have hlen : a.length = 13 := by
      have := congrArg List.length hs
      simpa using this
    have := congrArg List.length h
    simp [hlen] at this
    omega⟩
  refine .cons ?_ (.cons ?_ (.cons ?_ (.cons ?_ (.cons ?_ .nil))))
  · refine .call (c := .upload c!"x.js" (some aFunction)) (aLine ⟨⟨by decide, by decide⟩, ⟨by decide, by decide⟩, by decide⟩)
      (.json (by simpa using other) (by intro l hl; rw [List.mem_singleton.1 hl]; exact ⟨by decide, by decide⟩) (if_pos rfl) ?_) rfl
    exact .members ⟨by unfold OnceOf; decide, rfl, some aFunction, none, .inr ⟨_, rfl, rfl⟩, .inl ⟨.inl rfl, rfl⟩, .inl ⟨_, rfl, rfl⟩⟩
  · exact .elsewhere (aLine ⟨⟨by decide, by decide⟩, ⟨by decide, by decide⟩, by decide⟩) (by decide)
  · exact .call (c := .delete c!"x.js") (aLine ⟨⟨by decide, by decide⟩, ⟨by decide, by decide⟩, by decide⟩) (.json (by simpa using other) (by simp) rfl (.members ⟨by unfold OnceOf; decide, rfl⟩)) rfl
  · exact .call (c := .delete c!"x.js") (aLine ⟨⟨by decide, by decide⟩, ⟨by decide, by decide⟩, by decide⟩) (.json (by simp) (by simp) rfl (.members ⟨by unfold OnceOf; decide, rfl⟩)) rfl
  · exact .unreadable (aLine ⟨⟨by decide, by decide⟩, ⟨by decide, by decide⟩, by decide⟩) (by simp) (by simp) (.noJson (by decide) rfl) rfl

theorem site_ready : Ready open_ [c!"srv", c!"hooks"] site.fs where
  found := by decide +kernel
  isDir := by decide +kernel
  noDir := by
    rintro name ⟨⟨stem, rfl⟩, h⟩
    simp [Fs.isDir, site]

/-- The history meets the hypotheses of `C119_history`. -/
example (X : Ext) (hX : LowersWords X) (H : HttpExt) :
    Runs (storeOf [c!"srv", c!"hooks"] site.fs) aHistory (statusesOf X (aServer H) open_ theRequests site) (storeOf [c!"srv", c!"hooks"] (serve X (aServer H) open_ theRequests site).fs) :=
  C119_history X hX _ aTree (aServer_reads H) (fun _ => rfl) open_ _ aHistory theRequests (theRequests_are X) (by
    intro e he name hn
    simp only [aHistory, List.mem_cons, List.not_mem_nil, or_false] at he
    rcases he with rfl | rfl | rfl | rfl | rfl <;> simp only [Event.name, Option.some.injEq, reduceCtorEq] at hn <;> subst hn <;> decide) (by
    intro e he code hc p
    have hv : (validateJs X (aServer H) aFunction).toBool = true := by kernel_rfl
    simp only [aHistory, List.mem_cons, List.not_mem_nil, or_false] at he
    rcases he with rfl | rfl | rfl | rfl | rfl <;> simp only [Event.code, Option.some.injEq, reduceCtorEq] at hc
    subst hc
    intro h
    rw [h] at hv
    simp [Except.toBool] at hv) site site_ready

end FileStore
