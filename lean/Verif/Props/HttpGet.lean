import Verif.Model.HttpGet
import Verif.Lemmas.Utf8
import Verif.Base.KernelRfl
/-! C142: `httpGet` in JavaScript functions. What `curl` does is specified after its manual. -/

namespace HttpGet

open HttpRead (Bytes)

namespace Spec

/-- The characters that have a meaning in a URL given to `curl` ("You can specify multiple URLs or parts of URLs by writing lists within braces or ranges within brackets"). -/
def special (c : Char) : Bool := c ∈ ['{', '}', '[', ']']

/-- A text before and from its first special character. -/
def cut (w : Str) : Str × Str := (w.takeWhile fun c => !special c, w.dropWhile fun c => !special c)

/-- The URLs that one URL on the command line of `curl` stands for: itself, or one for each member of a list in braces. Ranges, and several lists, are left out. -/
def stands (w : Str) : Option (List Str) :=
  match cut w with
  | (_, []) => some [w]
  | (a, '{' :: r) =>
    match cut r with
    | (m, '}' :: b) => if b.all (fun c => !special c) then some ((m.splitOn ',').map fun x => a ++ x ++ b) else none
    | _ => none
  | _ => none

/-- The URLs that a command line of `curl` asks for. Words that begin with a dash are options: `-s` and `-S` ask for nothing; command lines with other options are left out. -/
def asks : List Str → Option (List Str)
  | [] => some []
  | w :: ws =>
    if w = c!"-sS" then asks ws
    else if w.head? = some '-' then none
    else do
      let us ← stands w
      let vs ← asks ws
      return us ++ vs

/-- `curl` is installed and the URLs lead to the pages `web`, `none` if there is no answer: it writes the pages one after the other, whatever status they come with, and fails if one is missing. -/
def Follows (C : Computer) (web : Str → Option Bytes) : Prop :=
  ∀ ws us, asks ws = some us →
    (∀ bs, us.mapM web = some bs → C.run c!"curl" ws = .ok ⟨true, bs.flatten, []⟩) ∧ (us.mapM web = none → ∃ out err, C.run c!"curl" ws = .ok ⟨false, out, err⟩)

/-- A URL without a meaning for `curl` other than itself. -/
def Plain (url : Str) : Prop := url.head? ≠ some '-' ∧ (∀ c ∈ url, special c = false) ∧ '\x00' ∉ url

/-- The bytes of a text. -/
def bytes (s : Str) : Bytes := s.flatMap String.utf8EncodeChar

end Spec

open Spec

theorem span_plain {w : Str} (h : ∀ c ∈ w, special c = false) (r : Str) (hr : ∀ c t, r = c :: t → special c = true) : cut (w ++ r) = (w, r) := by
  induction w with
  | nil =>
    cases r with
    | nil => rfl
    | cons c t =>
      have := hr c t rfl
      simp [cut, this]
  | cons c w ih =>
    have h1 := h c (by simp)
    have h2 := ih fun c hc => h c (by simp [hc])
    simp only [cut, Prod.mk.injEq, List.cons_append] at h2 ⊢
    simp [h1, h2.1, h2.2]

theorem stands_plain {w : Str} (h : ∀ c ∈ w, special c = false) : stands w = some [w] := by
  have := span_plain h [] (by simp)
  rw [List.append_nil] at this
  unfold stands
  rw [this]

theorem asks_one {w : Str} {us : List Str} (h1 : w.head? ≠ some '-') (h : stands w = some us) : asks [c!"-sS", w] = some us := by
  have h2 : w ≠ c!"-sS" := fun h => h1 (by rw [h]; rfl)
  simp only [asks, if_true, if_neg h2, if_neg h1, h]
  simp

theorem run_get (C : Computer) {url : Str} (h : '\x00' ∉ url) :
    get C url = match C.run c!"curl" [c!"-sS", url] with
      | .ok o => ([(c!"curl", [c!"-sS", url])], if o.success then HttpRead.utf8Lossy o.stdout else c!"HTTP error: " ++ HttpRead.utf8Lossy o.stderr)
      | .error e => ([(c!"curl", [c!"-sS", url])], c!"Failed to execute curl: " ++ e) := by
  unfold get output
  rw [if_neg (by simp [h])]
  cases C.run c!"curl" [c!"-sS", url] <;> rfl

/-- **C142.** `httpGet` of a plain URL asks `curl` for this URL and gives the page, if it is a text; if there is no answer it gives a text that says so. Nothing else is run. -/
theorem C142_page (C : Computer) (web : Str → Option Bytes) (hC : Follows C web) (url : Str) (hu : Plain url) :
    (get C url).1 = [(c!"curl", [c!"-sS", url])] ∧ (∀ s, web url = some (bytes s) → (get C url).2 = s) ∧ (web url = none → ∃ e, (get C url).2 = c!"HTTP error: " ++ e) := by
  obtain ⟨h1, h2, h3⟩ := hu
  have ha := asks_one h1 (stands_plain h2)
  rw [run_get C h3]
  refine ⟨by cases C.run c!"curl" [c!"-sS", url] <;> rfl, fun s hs => ?_, fun hn => ?_⟩
  · have := (hC _ _ ha).1 [bytes s] (by simp [hs])
    rw [this]
    simp only [List.flatten_cons, List.flatten_nil, List.append_nil, if_true]
    exact HttpRead.utf8Lossy_of_encode s
  · obtain ⟨out, err, this⟩ := (hC _ _ ha).2 (by simp [hn])
    rw [this]
    exact ⟨_, rfl⟩

/-- **C142**, what fails: failures cannot be told from pages. Whatever `httpGet` gives on some computer, it also gives where the URL leads to a page. -/
theorem C142_failure_hidden (C : Computer) (url : Str) (hu : Plain url) : ∃ C' web, Follows C' web ∧ web url = some (bytes (get C url).2) ∧ (get C' url).2 = (get C url).2 := by
  refine ⟨⟨fun _ ws => match asks ws with
      | some us => match us.mapM (fun u => if u = url then some (bytes (get C url).2) else none) with
        | some bs => .ok ⟨true, bs.flatten, []⟩
        | none => .ok ⟨false, [], []⟩
      | none => .ok ⟨false, [], []⟩, []⟩, fun u => if u = url then some (bytes (get C url).2) else none, ?_, if_pos rfl, ?_⟩
  · intro ws us h
    simp only [h]
    refine ⟨fun bs hb => by rw [hb], fun hb => by rw [hb]; exact ⟨_, _, rfl⟩⟩
  · rw [run_get _ hu.2.2]
    simp only [asks_one hu.1 (stands_plain hu.2.1)]
    simp only [List.mapM_cons, List.mapM_nil, if_true, bind, Option.bind, pure, List.flatten_cons, List.flatten_nil, List.append_nil]
    exact HttpRead.utf8Lossy_of_encode _

/-- **C142**, what fails: a URL with a list in braces is several. `httpGet` asks for all of them and gives the pages in one text. -/
theorem C142_braces (C : Computer) (web : Str → Option Bytes) (hC : Follows C web) (a b : Str) (xs : List Str) (hx : xs ≠ []) (ha : a.head? ≠ some '-') (hs : ∀ c ∈ a ++ b ++ xs.flatten, special c = false ∧ c ≠ '\x00')
    (hc : ∀ x ∈ xs, ',' ∉ x) (page : Str → Str) (hp : ∀ x ∈ xs, web (a ++ x ++ b) = some (bytes (page x))) :
    (get C (a ++ '{' :: (c!",".intercalate xs ++ '}' :: b))).2 = xs.flatMap page := by
  have hm : ∀ c ∈ c!",".intercalate xs, special c = false ∧ c ≠ '\x00' := by
    intro c hc
    have : ∀ ys : List Str, (∀ y ∈ ys, ∀ c ∈ y, special c = false ∧ c ≠ '\x00') → ∀ c ∈ c!",".intercalate ys, special c = false ∧ c ≠ '\x00' := by
      intro ys h c hc
      induction ys with
      | nil => simp [List.intercalate] at hc
      | cons y ys ih =>
        cases ys with
        | nil => simp [List.intercalate] at hc; exact h y (by simp) c hc
        | cons z zs =>
          rw [List.intercalate_cons_cons] at hc
          simp only [List.append_assoc, List.mem_append, List.mem_singleton] at hc
          rcases hc with hc | rfl | hc
          · exact h y (by simp) c hc
          · exact ⟨by decide, by decide⟩
          · exact ih (fun y hy => h y (by simp [hy])) hc
    exact this xs (fun y hy c hc => hs c (by simp only [List.mem_append, List.mem_flatten]; exact .inr ⟨y, hy, hc⟩)) c hc
  have h1 : (a ++ '{' :: (c!",".intercalate xs ++ '}' :: b)).head? ≠ some '-' := by
    cases a with
    | nil => simp
    | cons c a => simpa using ha
  have h2 : stands (a ++ '{' :: (c!",".intercalate xs ++ '}' :: b)) = some (xs.map fun x => a ++ x ++ b) := by
    unfold stands
    rw [span_plain (fun c hc => (hs c (by simp [hc])).1) _ (by rintro c t h; cases h; decide)]
    simp only [span_plain (r := '}' :: b) (fun c hc => (hm c hc).1) (by rintro c t h; cases h; decide)]
    rw [if_pos (by simpa using fun c hc => (hs c (by simp [hc])).1), List.splitOn_intercalate ',' hc hx]
  have h3 : '\x00' ∉ a ++ '{' :: (c!",".intercalate xs ++ '}' :: b) := by
    intro h
    simp only [List.mem_append, List.mem_cons] at h
    rcases h with h | h | h | h | h
    · exact (hs _ (by simp [h])).2 rfl
    · exact absurd h (by decide)
    · exact (hm _ h).2 rfl
    · exact absurd h (by decide)
    · exact (hs _ (by simp [h])).2 rfl
  have h4 : (xs.map fun x => a ++ x ++ b).mapM web = some (xs.map fun x => bytes (page x)) := by
    clear hm h2 h3 h1 hx hs hc
    induction xs with
    | nil => rfl
    | cons x xs ih =>
      simp only [List.map_cons, List.mapM_cons, hp x (by simp), ih fun y hy => hp y (by simp [hy])]
      rfl
  rw [run_get C h3, (hC _ _ (asks_one h1 h2)).1 _ h4]
  simp only [if_true]
  have : (xs.map fun x => bytes (page x)).flatten = bytes (xs.flatMap page) := by
    unfold bytes
    rw [List.flatMap_assoc, List.flatMap_def]
  rw [this]
  exact HttpRead.utf8Lossy_of_encode _

/-- **C142**, what fails: a URL that begins with a dash is given to `curl` as an option, so that no page is asked for; what `curl` writes then is taken for the page. -/
theorem C142_dash (C : Computer) (r : Str) (h : '\x00' ∉ r) :
    (∃ ws, (get C ('-' :: r)).1 = [(c!"curl", ws)] ∧ ws ≠ [] ∧ ∀ w ∈ ws, w.head? = some '-') ∧
    ∀ s e, C.run c!"curl" [c!"-sS", '-' :: r] = .ok ⟨true, bytes s, e⟩ → (get C ('-' :: r)).2 = s := by
  rw [run_get C (by simp [h])]
  refine ⟨⟨[c!"-sS", '-' :: r], by cases C.run c!"curl" [c!"-sS", '-' :: r] <;> rfl, by simp, by simp⟩, fun s e hs => ?_⟩
  rw [hs]
  exact HttpRead.utf8Lossy_of_encode _

/-- **C142.** Whatever the URL, the only program ever run is `curl`, once, and the URL is one word of its command line: no shell sees it. -/
theorem C142_run (C : Computer) (url : Str) : (get C url).1 = [] ∧ '\x00' ∈ url ∨ (get C url).1 = [(c!"curl", [c!"-sS", url])] ∧ '\x00' ∉ url := by
  by_cases h : '\x00' ∈ url
  · left
    refine ⟨?_, h⟩
    unfold get output
    rw [if_pos (by simp [h])]
  · right
    refine ⟨?_, h⟩
    rw [run_get C h]
    cases C.run c!"curl" [c!"-sS", url] <;> rfl

/-- **C142.** If `curl` cannot be run the text says so, and gives the reason. -/
theorem C142_not_run (C : Computer) (url e : Str) (h : '\x00' ∈ url ∧ C.nullError = e ∨ '\x00' ∉ url ∧ C.run c!"curl" [c!"-sS", url] = .error e) :
    (get C url).2 = c!"Failed to execute curl: " ++ e := by
  rcases h with ⟨h, rfl⟩ | ⟨h, he⟩
  · unfold get output
    rw [if_pos (by simp [h])]
  · rw [run_get C h, he]

example : (get ⟨fun _ _ => .error c!"No such file or directory (os error 2)", []⟩ c!"http://x.org").2 = c!"Failed to execute curl: No such file or directory (os error 2)" := by kernel_rfl

/-- A computer on which `curl` follows the pages of one site. -/
def Spec.site : Computer × (Str → Option Bytes) :=
  let web : Str → Option Bytes := fun u => if u = c!"http://x.org/a" then some (bytes c!"A") else if u = c!"http://x.org/b" then some (bytes c!"é") else none
  (⟨fun _ ws => match asks ws with
      | some us => match us.mapM web with
        | some bs => .ok ⟨true, bs.flatten, []⟩
        | none => .ok ⟨false, [], bytes c!"curl: (6) Could not resolve host"⟩
      | none => .ok ⟨false, [], []⟩, c!"nul"⟩, web)

/-- The hypotheses of C142_page and C142_braces can be met. -/
example : Follows site.1 site.2 ∧ Plain c!"http://x.org/a" ∧ site.2 c!"http://x.org/a" = some (bytes c!"A") ∧ site.2 c!"http://y.org" = none ∧
    (get site.1 c!"http://x.org/{a,b}").2 = c!"Aé" ∧ (get site.1 c!"http://y.org").2 = c!"HTTP error: curl: (6) Could not resolve host" := by
  refine ⟨fun ws us h => ?_, ⟨by decide, by decide, by decide⟩, by decide +kernel, by decide +kernel, by kernel_rfl, by kernel_rfl⟩
  simp only [site, h]
  exact ⟨fun bs hb => by rw [hb], fun hb => by rw [hb]; exact ⟨_, _, rfl⟩⟩

end HttpGet
