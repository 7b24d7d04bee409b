import Verif.Model.Bench
import Verif.Props.HttpQuery
import Mathlib.Data.List.Perm.Basic
import Mathlib.Algebra.BigOperators.Group.List.Basic
/-! C114, C115: the benchmark of the HTTP server. -/

namespace Bench.Spec

/-- An ASCII character. -/
def Ascii (s : Str) : Prop := ∀ c ∈ s, c.toNat < 128

/-- An option and its number, in the short or the long form. -/
inductive Word where
  | concurrent (long : Bool) (text : Str) (n : Nat)
  | requests (long : Bool) (text : Str) (n : Nat)
  | warmup (long : Bool) (text : Str) (n : Nat)

/-- How it is written. -/
def Word.words : Word → List Str
  | .concurrent l t _ => [if l then c!"--concurrent" else c!"-c", t]
  | .requests l t _ => [if l then c!"--requests" else c!"-n", t]
  | .warmup l t _ => [if l then c!"--warmup" else c!"-w", t]

/-- Its text is read as its number. -/
def Word.ok : Word → Prop
  | .concurrent _ t n | .requests _ t n | .warmup _ t n => Str.parseUsize t = some n

/-- The last number given for an option. -/
def last (pick : Word → Option Nat) (ws : List Word) (default : Nat) : Nat := (ws.reverse.findSome? pick).getD default

def Word.isConcurrent : Word → Option Nat
  | .concurrent _ _ n => some n
  | _ => none

def Word.isRequests : Word → Option Nat
  | .requests _ _ n => some n
  | _ => none

def Word.isWarmup : Word → Option Nat
  | .warmup _ _ n => some n
  | _ => none

end Bench.Spec

namespace Bench
open Bench.Spec Http HttpQuery HttpQuery.Spec

/-! ### C114: requests -/

theorem toNat_of_ascii {c : Char} (h : c.toNat < 128) : ∃ n : Fin 128, c = Char.ofNat n := ⟨⟨c.toNat, h⟩, by simp⟩

theorem encodeChar_pct (c : Char) (h : c.toNat < 128) : encodeChar c = pctEncode [c] := by
  obtain ⟨n, rfl⟩ := toNat_of_ascii h
  revert n
  decide +kernel

theorem urlEncode_pct : ∀ s : Str, Ascii s → urlEncode s = pctEncode s
  | [], _ => rfl
  | c :: s, h => by
    have h1 := encodeChar_pct c (h c (by simp))
    have h2 := urlEncode_pct s fun d hd => h d (by simp [hd])
    unfold urlEncode at h2 ⊢
    rw [List.flatMap_cons, h1, h2]
    simp [pctEncode]

theorem hexUpper_eq (n : Nat) : hexUpper n = hexDigit n := rfl

/-- An encoded character stands for one byte. -/
theorem pctBytes_encodeChar (c : Char) (rest : Str) : HttpRead.pctBytes 0 (encodeChar c ++ rest) = UInt8.ofNat (c.toNat % 256) :: HttpRead.pctBytes 0 rest := by
  by_cases h : c.toNat < 128
  · obtain ⟨n, rfl⟩ := toNat_of_ascii h
    have e : pctEncode [Char.ofNat n] ++ rest = encodeChar (Char.ofNat n) ++ rest := by rw [encodeChar_pct _ h]
    rw [← e]
    unfold pctEncode
    rw [List.flatMap_cons, List.flatMap_nil, List.append_nil]
    have hb : String.utf8EncodeChar (Char.ofNat n) = [UInt8.ofNat ((Char.ofNat n).toNat % 256)] := by
      clear e h; revert n; decide +kernel
    split
    · rename_i hu
      have : Char.ofNat n ≠ '%' := by intro hp; rw [hp] at hu; revert hu; decide
      rw [List.singleton_append, HttpRead.pctBytes, if_neg this, hb]
      rfl
    · rw [pctBytes_bytes, hb]
      rfl
  · have h' : ∀ d : Char, d.toNat < 128 → c ≠ d := fun d hd hc => h (hc ▸ hd)
    have ha : ¬ (Str.asciiAlnum c = true ∨ c = '-' ∨ c = '_' ∨ c = '.' ∨ c = '~') := by
      rintro (ha | ha | ha | ha | ha)
      · have : c.toNat < 128 := by
          simp only [Str.asciiAlnum, Str.asciiAlpha, Str.asciiDigit, Bool.or_eq_true, Bool.and_eq_true, decide_eq_true_eq] at ha
          have k : ∀ d : Char, d.toNat < 128 → c ≤ d → c.toNat < 128 := fun d hd hc => Nat.lt_of_le_of_lt hc hd
          rcases ha with (⟨-, ha⟩ | ⟨-, ha⟩) | ⟨-, ha⟩
          · exact k _ (by decide) ha
          · exact k _ (by decide) ha
          · exact k _ (by decide) ha
        exact h this
      all_goals exact h' _ (by decide) ha
    have e : encodeChar c = ['%', hexUpper (c.toNat % 256 / 16), hexUpper (c.toNat % 256 % 16)] := by
      unfold encodeChar
      rw [if_neg (h' _ (by decide)), if_neg (h' _ (by decide)), if_neg (h' _ (by decide)), if_neg (h' _ (by decide)), if_neg (h' _ (by decide)), if_neg (h' _ (by decide)),
        if_neg (h' _ (by decide)), if_neg (h' _ (by decide)), if_neg (h' _ (by decide)), if_neg (h' _ (by decide)), if_neg (h' _ (by decide)), if_neg ha]
    have hb := pctBytes_bytes rest [UInt8.ofNat (c.toNat % 256)]
    have hn : (UInt8.ofNat (c.toNat % 256)).toNat = c.toNat % 256 := by simp
    rw [List.flatMap_cons, List.flatMap_nil, List.append_nil, hn] at hb
    rw [e, hexUpper_eq, hexUpper_eq, hb]
    rfl

theorem pctBytes_urlEncode : ∀ s : Str, HttpRead.pctBytes 0 (urlEncode s) = s.map fun c => UInt8.ofNat (c.toNat % 256)
  | [] => rfl
  | c :: s => by
    have ih := pctBytes_urlEncode s
    unfold urlEncode at ih ⊢
    rw [List.flatMap_cons, pctBytes_encodeChar, ih, List.map_cons]

theorem ascii_of_byteLen : ∀ s : Str, Str.byteLen s = s.length → Ascii s
  | [], _ => fun c hc => by simp at hc
  | c :: s, h => by
    have w : 1 ≤ Str.width c := by unfold Str.width; split_ifs <;> omega
    have l : ∀ t : Str, t.length ≤ Str.byteLen t := by
      intro t
      induction t with
      | nil => simp [Str.byteLen]
      | cons d t ih =>
        have : 1 ≤ Str.width d := by unfold Str.width; split_ifs <;> omega
        simp only [Str.byteLen, List.length_cons] at ih ⊢
        omega
    have hs := l s
    simp only [Str.byteLen, List.length_cons] at h hs
    have hw : Str.width c = 1 := by omega
    intro d hd
    rcases List.mem_cons.1 hd with rfl | hd
    · unfold Str.width at hw
      by_cases h1 : d.val < 128
      · exact h1
      · rw [if_neg h1] at hw
        split_ifs at hw <;> omega
    · exact ascii_of_byteLen s (by omega) d hd

/-- **C114, the encoding.** Exactly the ASCII expressions arrive at the server as they are. -/
theorem C114_encoding (expr : Str) : HttpRead.urlDecode (urlEncode expr) = some expr ↔ Ascii expr := by
  constructor
  · intro h
    unfold HttpRead.urlDecode at h
    rw [pctBytes_urlEncode] at h
    have := HttpRead.utf8_encode h
    refine ascii_of_byteLen expr ?_
    rw [← HttpRead.encode_byteLen, this, List.length_map]
  · intro h
    rw [urlEncode_pct expr h]
    exact urlDecode_encodes (encodes_pct _)

theorem splitGo_plain (p : Str) (ph : Char) : ∀ (s acc : Str), ph ∉ s → Str.splitGo (ph :: p) 0 acc s = [acc.reverse ++ s]
  | [], acc, _ => by simp [Str.splitGo]
  | c :: s, acc, h => by
    simp only [List.mem_cons, not_or] at h
    have : Str.startsWith (c :: s) (ph :: p) = false := by
      simp only [Str.startsWith, Bool.and_eq_false_iff, beq_eq_false_iff_ne]
      exact .inl (Ne.symm h.1)
    rw [Str.splitGo, this]
    simp only [Bool.false_eq_true, if_false]
    rw [splitGo_plain p ph s _ h.2]
    simp

theorem sent_plain {host request : Str} (h : '{' ∉ request) : sent host request = request := by
  unfold sent Str.replace Str.split
  simp only [List.isEmpty_cons, Bool.false_eq_true, if_false]
  rw [splitGo_plain _ _ _ _ h]
  simp [Str.join]

theorem brace_not_pct (s : Str) : '{' ∉ pctEncode s := by
  unfold pctEncode
  intro h
  obtain ⟨c, -, hc⟩ := List.mem_flatMap.1 h
  split at hc
  · rename_i hu
    rw [List.mem_singleton] at hc
    rw [← hc] at hu
    revert hu; decide
  · obtain ⟨b, -, hb⟩ := List.mem_flatMap.1 hc
    have hd : ∀ n : Nat, hexDigit n ≠ '{' := by
      intro n
      by_cases hn : n < 16
      · have : ∀ n : Fin 16, hexDigit n ≠ '{' := by decide
        exact this ⟨n, hn⟩
      · unfold hexDigit
        rw [List.getD_eq_getElem?_getD, List.getElem?_eq_none (by simp; omega)]
        decide
    simp only [List.mem_cons, List.not_mem_nil, or_false] at hb
    rcases hb with hb | hb | hb
    · exact absurd hb (by decide)
    · exact hd _ hb.symm
    · exact hd _ hb.symm

theorem evalRequest_eq {host expr : Str} (hh : '{' ∉ host) (he : Ascii expr) :
    evalRequest host expr = getRequest [(c!"expr", some expr)] (c!"Host: " ++ (host ++ c!"\r\nConnection: close\r\n\r\n")) := by
  unfold evalRequest
  rw [sent_plain, urlEncode_pct expr he]
  · simp [getRequest, getWith, paramText, List.intercalate]
  · rw [urlEncode_pct expr he]
    simp only [List.mem_append, not_or]
    exact ⟨by decide, brace_not_pct expr, by decide, hh, by decide⟩

/-- **C114, the request.** A server without a token evaluates, for the request that the benchmark makes for an ASCII expression, that expression, without variables. -/
theorem C114_asks (X : Ext) (H : HttpExt) (cfg : Http.Config) (s : Site) (host expr : Str) (hh : '{' ∉ host) (he : Ascii expr) (hne : expr ≠ []) (ht : cfg.authToken = none) :
    handle X H cfg (evalRequest host expr) s = sendEval X s ⟨expr, none, some false, some .none⟩ := by
  have hk : ∀ p ∈ [(c!"expr", some expr)], PlainKey p.1 := by
    intro p hp
    rw [List.mem_singleton.1 hp]
    show ∀ c ∈ c!"expr", c ≠ '&' ∧ c ≠ '=' ∧ Str.isWs c = false
    decide
  rw [evalRequest_eq hh he]
  unfold getRequest
  rw [get_eq X H cfg s _ _ _ (by simp) (params_pct _ hk) (by rw [ht]; rfl)]
  have e : (given [(c!"expr", some expr)]).foldl step {} = { expression := expr } := rfl
  rw [e]
  cases expr with
  | nil => exact absurd rfl hne
  | cons c t => rfl

/-- **C114, the health check.** The health request of the benchmark is answered with 200. -/
theorem C114_health (X : Ext) (H : HttpExt) (cfg : Http.Config) (s : Site) (host : Str) :
    (handle X H cfg (healthRequest host) s).1 = some { status := 200 } := by kernel_rfl

/-- **C114, other expressions.** A single letter outside ASCII arrives as nothing at all: the server answers that the expression is missing; two of them
can arrive as another one. -/
theorem C114_not_ascii (X : Ext) (H : HttpExt) (s : Site) :
    handle X H ⟨none, none, [], []⟩ (evalRequest c!"h" c!"é") s = reply s 400 ∧
    HttpRead.urlDecode (urlEncode c!"ǃƩ") = some c!"é" := ⟨by kernel_rfl, by decide +kernel⟩

example : Ascii c!"[1,2,3,4,5,6,7,8,9,10].map(:x*2).filter(:x>10).sum()" := by unfold Ascii; decide
example : urlEncode c!"2^10+sqrt(144)*3" = c!"2%5E10%2Bsqrt%28144%29%2A3" := by decide

/-! ### C115: arguments -/

theorem lastColon_eq : ∀ (r tail host port : Str), ':' ∉ tail → (lastColon r tail = some (host, port) ↔ r.reverse ++ tail = host ++ ':' :: port ∧ ':' ∉ port)
  | [], tail, host, port, ht => by
    simp only [lastColon, List.reverse_nil, List.nil_append, reduceCtorEq, false_iff, not_and]
    intro h
    rw [h] at ht
    simp at ht
  | c :: r, tail, host, port, ht => by
    rw [lastColon]
    by_cases hc : c = ':'
    · rw [if_pos hc, hc]
      simp only [Option.some.injEq, Prod.mk.injEq, List.reverse_cons, List.append_assoc, List.singleton_append]
      constructor
      · rintro ⟨rfl, rfl⟩; exact ⟨rfl, ht⟩
      · rintro ⟨h, hp⟩
        have h' := congrArg List.reverse h
        simp only [List.reverse_append, List.reverse_cons, List.append_assoc, List.singleton_append] at h'
        obtain ⟨e1, e2⟩ := split_at (by simpa using ht) (by simpa using hp) h'
        exact ⟨by simpa using congrArg List.reverse e2, by simpa using congrArg List.reverse e1⟩
    · rw [if_neg hc, lastColon_eq r (c :: tail) host port (by simp [Ne.symm hc, ht])]
      simp

theorem options_words : ∀ (ws : List Word) (c : Config), (∀ w ∈ ws, w.ok) →
    options (ws.flatMap Word.words) c = .ok { c with
      concurrent := last Word.isConcurrent ws c.concurrent
      requests := last Word.isRequests ws c.requests
      warmup := last Word.isWarmup ws c.warmup }
  | [], c, _ => rfl
  | w :: ws, c, h => by
    have hw := h w (by simp)
    have ih := fun c => options_words ws c fun v hv => h v (by simp [hv])
    have hl : ∀ (pick : Word → Option Nat) (d : Nat), last pick (w :: ws) d = last pick ws ((pick w).getD d) := by
      intro pick d
      unfold last
      rw [List.reverse_cons, List.findSome?_append]
      cases ws.reverse.findSome? pick <;> cases hp : pick w <;> simp [hp]
    rw [List.flatMap_cons, hl, hl, hl]
    cases w with
    | concurrent l t n =>
      cases l <;> (simp only [Word.words, List.cons_append, List.nil_append]; rw [options.eq_def]; simp [show Str.parseUsize t = some n from hw, ih, Word.isConcurrent, Word.isRequests, Word.isWarmup])
    | requests l t n =>
      cases l <;> (simp only [Word.words, List.cons_append, List.nil_append]; rw [options.eq_def]; simp [show Str.parseUsize t = some n from hw, ih, Word.isConcurrent, Word.isRequests, Word.isWarmup])
    | warmup l t n =>
      cases l <;> (simp only [Word.words, List.cons_append, List.nil_append]; rw [options.eq_def]; simp [show Str.parseUsize t = some n from hw, ih, Word.isConcurrent, Word.isRequests, Word.isWarmup])

theorem options_ok : ∀ (n : Nat) (args : List Str) (c c' : Config), args.length ≤ n → options args c = .ok c' → ∃ ws : List Word, args = ws.flatMap Word.words ∧ ∀ w ∈ ws, w.ok := by
  intro n
  induction n with
  | zero =>
    intro args c c' hl _
    cases args with
    | nil => exact ⟨[], rfl, by simp⟩
    | cons a as => simp at hl
  | succ n ih =>
    intro args c c' hl h
    cases args with
    | nil => exact ⟨[], rfl, by simp⟩
    | cons a as =>
      rw [options.eq_def] at h
      simp only [List.length_cons] at hl
      dsimp only at h
      have use : ∀ (w : Word) (v : Str) (rest : List Str) (d : Config), w.words = [a, v] → w.ok → rest.length ≤ n → options rest d = .ok c' →
          ∃ ws : List Word, a :: v :: rest = ws.flatMap Word.words ∧ ∀ w ∈ ws, w.ok := by
        intro w v rest d hw hok hl h
        obtain ⟨ws, e, hws⟩ := ih rest d c' hl h
        refine ⟨w :: ws, by rw [List.flatMap_cons, hw, ← e]; rfl, ?_⟩
        intro u hu
        rcases List.mem_cons.1 hu with rfl | hu
        · exact hok
        · exact hws u hu
      by_cases h1 : a = c!"-c" ∨ a = c!"--concurrent"
      · rw [if_pos h1] at h
        cases as with
        | nil => cases h
        | cons v rest =>
          simp only [List.length_cons] at hl
          dsimp only at h
          cases hp : Str.parseUsize v with
          | none => rw [hp] at h; cases h
          | some m =>
            rw [hp] at h
            rcases h1 with rfl | rfl
            · exact use (.concurrent false v m) v rest _ rfl hp (by omega) h
            · exact use (.concurrent true v m) v rest _ rfl hp (by omega) h
      rw [if_neg h1] at h
      by_cases h2 : a = c!"-n" ∨ a = c!"--requests"
      · rw [if_pos h2] at h
        cases as with
        | nil => cases h
        | cons v rest =>
          simp only [List.length_cons] at hl
          dsimp only at h
          cases hp : Str.parseUsize v with
          | none => rw [hp] at h; cases h
          | some m =>
            rw [hp] at h
            rcases h2 with rfl | rfl
            · exact use (.requests false v m) v rest _ rfl hp (by omega) h
            · exact use (.requests true v m) v rest _ rfl hp (by omega) h
      rw [if_neg h2] at h
      by_cases h3 : a = c!"-w" ∨ a = c!"--warmup"
      · rw [if_pos h3] at h
        cases as with
        | nil => cases h
        | cons v rest =>
          simp only [List.length_cons] at hl
          dsimp only at h
          cases hp : Str.parseUsize v with
          | none => rw [hp] at h; cases h
          | some m =>
            rw [hp] at h
            rcases h3 with rfl | rfl
            · exact use (.warmup false v m) v rest _ rfl hp (by omega) h
            · exact use (.warmup true v m) v rest _ rfl hp (by omega) h
      rw [if_neg h3] at h
      cases h

/-- **C115, the arguments.** They are accepted exactly if they are a host and a port and then options with a number each, in any order; the last number given for
an option counts, and without one 10 connections, 100 requests and 20 for the warm-up. The port is what stands after the last colon. -/
theorem C115_arguments (args : List Str) (c : Config) :
    parseArgs args = .ok c ↔ ∃ (host port : Str) (p : Nat) (ws : List Word), args = (host ++ ':' :: port) :: ws.flatMap Word.words ∧ ':' ∉ port ∧
      Startup.parsePort port = some p ∧ (∀ w ∈ ws, w.ok) ∧
      c = ⟨host, p, last Word.isConcurrent ws 10, last Word.isRequests ws 100, last Word.isWarmup ws 20⟩ := by
  constructor
  · intro h
    cases args with
    | nil => cases h
    | cons hp rest =>
      unfold parseArgs at h
      dsimp only at h
      cases hc : lastColon hp.reverse [] with
      | none => rw [hc] at h; cases h
      | some q =>
        obtain ⟨host, port⟩ := q
        rw [hc] at h
        dsimp only at h
        obtain ⟨e, hn⟩ := (lastColon_eq _ _ _ _ (by simp)).1 hc
        cases hpp : Startup.parsePort port with
        | none => rw [hpp] at h; cases h
        | some p =>
          rw [hpp] at h
          dsimp only at h
          obtain ⟨ws, ew, hw⟩ := options_ok _ _ _ _ (Nat.le_refl _) h
          refine ⟨host, port, p, ws, ?_, hn, hpp, hw, ?_⟩
          · rw [ew]; simpa using e
          · rw [ew, options_words ws _ hw] at h
            exact (Except.ok.inj h).symm
  · rintro ⟨host, port, p, ws, rfl, hn, hp, hw, rfl⟩
    have hc : lastColon (host ++ ':' :: port).reverse [] = some (host, port) := (lastColon_eq _ _ _ _ (by simp)).2 ⟨by simp, hn⟩
    unfold parseArgs
    dsimp only
    rw [hc]
    dsimp only
    rw [hp]
    exact options_words ws _ hw

example : parseArgs [c!"::1:8080", c!"-n", c!"5", c!"--warmup", c!"0", c!"-n", c!"7"] = .ok ⟨c!"::1", 8080, 10, 7, 0⟩ := by decide +kernel

/-! ### C115: counts -/

theorem sum_share_aux (q r : Nat) : ∀ c : Nat, ((List.range c).map fun i => if i < r then q + 1 else q).sum = c * q + min c r
  | 0 => by simp
  | c + 1 => by
    rw [List.range_succ, List.map_append, List.sum_append, sum_share_aux q r c]
    simp only [List.map_cons, List.map_nil, List.sum_cons, List.sum_nil, Nat.add_zero, Nat.succ_mul]
    split <;> omega

/-- **C115, the shares.** The threads together make the number of requests asked for, and no thread makes two more than another. -/
theorem C115_shares (n c : Nat) (hc : 0 < c) : ((List.range c).map (share n c)).sum = n ∧ ∀ i j, share n c i ≤ share n c j + 1 := by
  constructor
  · have := sum_share_aux (n / c) (n % c) c
    have hm := Nat.mod_lt n hc
    have hd := Nat.div_add_mod n c
    unfold share
    rw [this]
    omega
  · intro i j
    unfold share
    split_ifs <;> omega

/-- What has been done and what is to be done, together. -/
structure Total (m : Machine) (lat : List Nat) (ok bad : Nat) : Prop where
  latencies : (m.counters.latencies ++ m.threads.flatten.filterMap fun | .push d => some d | _ => none).Perm lat
  success : m.counters.success + (m.threads.flatten.filter fun | .success => true | _ => false).length = ok
  errors : m.counters.errors + (m.threads.flatten.filter fun | .error => true | _ => false).length = bad

theorem total_next {a b : Machine} {lat : List Nat} {ok bad : Nat} (h : a.Next b) (ht : Total a lat ok bad) : Total b lat ok bad := by
  cases h with
  | @step before after s rest c =>
    obtain ⟨h1, h2, h3⟩ := ht
    simp only [List.flatten_append, List.flatten_cons, List.filterMap_append, List.filter_append, List.length_append, List.cons_append, List.filterMap_cons, List.filter_cons] at h1 h2 h3
    cases s with
    | push d =>
      refine ⟨?_, ?_, ?_⟩
      · simp only [List.flatten_append, List.flatten_cons, List.filterMap_append, Counters.step]
        refine List.Perm.trans ?_ h1
        simp only [List.append_assoc, List.singleton_append]
        refine List.Perm.append_left _ ?_
        exact List.perm_middle.symm
      · simpa [Counters.step] using h2
      · simpa [Counters.step] using h3
    | success =>
      refine ⟨?_, ?_, ?_⟩
      · simpa [Counters.step] using h1
      · simp [Counters.step] at h2 ⊢; omega
      · simpa [Counters.step] using h3
    | error =>
      refine ⟨?_, ?_, ?_⟩
      · simpa [Counters.step] using h1
      · simpa [Counters.step] using h2
      · simp [Counters.step] at h3 ⊢; omega

theorem total_steps {a b : Machine} {lat : List Nat} {ok bad : Nat} (h : a.Steps b) (ht : Total a lat ok bad) : Total b lat ok bad := by
  induction h with
  | refl => exact ht
  | tail _ h ih => exact total_next h (ih)

theorem total_start (answers : List (List (Option Nat))) :
    Total (start answers) (answers.flatten.filterMap id) (answers.flatten.filter Option.isSome).length (answers.flatten.filter Option.isNone).length := by
  have e : (answers.map fun as => as.flatMap stepsOf).flatten = answers.flatten.flatMap stepsOf := by
    induction answers with
    | nil => rfl
    | cons a as ih => rw [List.map_cons, List.flatten_cons, List.flatten_cons, List.flatMap_append, ih]
  refine ⟨?_, ?_, ?_⟩ <;> simp only [start, e]
  · have : (answers.flatten.flatMap stepsOf).filterMap (fun | .push d => some d | _ => none) = answers.flatten.filterMap id := by
      induction answers.flatten with
      | nil => rfl
      | cons a as ih => cases a <;> simp [stepsOf, List.flatMap_cons, ih]
    rw [this]; exact List.Perm.refl _
  · rw [Nat.zero_add]
    induction answers.flatten with
    | nil => rfl
    | cons a as ih => cases a <;> simp [stepsOf, List.flatMap_cons, ih]
  · rw [Nat.zero_add]
    induction answers.flatten with
    | nil => rfl
    | cons a as ih => cases a <;> simp [stepsOf, List.flatMap_cons, ih]

theorem done_flatten {m : Machine} (h : m.Done) : m.threads.flatten = [] := by
  rw [List.flatten_eq_nil_iff]; exact h

theorem foldl_min : ∀ (ds : List Nat) (d : Nat), (ds.foldl Nat.min d ∈ d :: ds) ∧ ∀ x ∈ d :: ds, ds.foldl Nat.min d ≤ x
  | [], d => by simp
  | e :: ds, d => by
    obtain ⟨h1, h2⟩ := foldl_min ds (Nat.min d e)
    rw [List.foldl_cons]
    have hm : Nat.min d e = d ∨ Nat.min d e = e := by simp only [Nat.min_def]; split <;> simp
    constructor
    · rcases List.mem_cons.1 h1 with h | h
      · rcases hm with hm | hm <;> rw [h, hm] <;> simp
      · simp [h]
    · intro x hx
      have hle := h2 _ (by simp : Nat.min d e ∈ Nat.min d e :: ds)
      simp only [List.mem_cons] at hx
      rcases hx with rfl | rfl | hx
      · exact Nat.le_trans hle (Nat.min_le_left _ _)
      · exact Nat.le_trans hle (Nat.min_le_right _ _)
      · exact h2 x (by simp [hx])

theorem foldl_max : ∀ (ds : List Nat) (d : Nat), (ds.foldl Nat.max d ∈ d :: ds) ∧ ∀ x ∈ d :: ds, x ≤ ds.foldl Nat.max d
  | [], d => by simp
  | e :: ds, d => by
    obtain ⟨h1, h2⟩ := foldl_max ds (Nat.max d e)
    rw [List.foldl_cons]
    have hm : Nat.max d e = d ∨ Nat.max d e = e := by simp only [Nat.max_def]; split <;> simp
    constructor
    · rcases List.mem_cons.1 h1 with h | h
      · rcases hm with hm | hm <;> rw [h, hm] <;> simp
      · simp [h]
    · intro x hx
      have hle := h2 _ (by simp : Nat.max d e ∈ Nat.max d e :: ds)
      simp only [List.mem_cons] at hx
      rcases hx with rfl | rfl | hx
      · exact Nat.le_trans (Nat.le_max_left _ _) hle
      · exact Nat.le_trans (Nat.le_max_right _ _) hle
      · exact h2 x (by simp [hx])

theorem sum_bounds {lo hi : Nat} : ∀ (l : List Nat), (∀ x ∈ l, lo ≤ x ∧ x ≤ hi) → l.length * lo ≤ l.sum ∧ l.sum ≤ l.length * hi
  | [], _ => by simp
  | x :: l, h => by
    obtain ⟨h1, h2⟩ := sum_bounds l fun y hy => h y (by simp [hy])
    obtain ⟨h3, h4⟩ := h x (by simp)
    simp only [List.sum_cons, List.length_cons, Nat.succ_mul]
    omega

/-- **C115, the counts.** Whatever the answers and in whatever order the threads run: when they have all ended, the requests that succeeded and those that failed are counted
exactly and add up to the number asked for, and the latencies reported are those of the requests that succeeded: the least, the greatest and the mean, rounded down. -/
theorem C115_counts (n c : Nat) (hc : 0 < c) (hn : n < 2 ^ 32) (answers : List (List (Option Nat))) (ha : answers.map List.length = (List.range c).map (share n c))
    (m : Machine) (hm : (start answers).Steps m) (hd : m.Done) :
    ∃ r, report m.counters = .ok r ∧ r.success = (answers.flatten.filter Option.isSome).length ∧ r.errors = (answers.flatten.filter Option.isNone).length ∧
      r.success + r.errors = n ∧
      (r.success = 0 → r.min = 0 ∧ r.max = 0 ∧ r.avg = 0) ∧
      (r.success ≠ 0 → some r.min ∈ answers.flatten ∧ some r.max ∈ answers.flatten ∧ (∀ d, some d ∈ answers.flatten → r.min ≤ d ∧ d ≤ r.max) ∧
        r.min ≤ r.avg ∧ r.avg ≤ r.max ∧ r.avg = (answers.flatten.filterMap id).sum / r.success) := by
  obtain ⟨h1, h2, h3⟩ := total_steps hm (total_start answers)
  rw [done_flatten hd] at h1 h2 h3
  simp only [List.filterMap_nil, List.append_nil, List.filter_nil, List.length_nil, Nat.add_zero] at h1 h2 h3
  have hlen : ∀ l : List (Option Nat), (l.filterMap id).length = (l.filter Option.isSome).length ∧ (l.filter Option.isSome).length + (l.filter Option.isNone).length = l.length := by
    intro l
    induction l with
    | nil => simp
    | cons a l ih =>
      obtain ⟨i1, i2⟩ := ih
      cases a with
      | none =>
        rw [List.filterMap_cons_none rfl, List.filter_cons_of_neg (by simp), List.filter_cons_of_pos rfl, List.length_cons, List.length_cons]
        exact ⟨i1, by omega⟩
      | some d =>
        rw [List.filterMap_cons_some (f := id) (a := some d) (b := d) rfl, List.filter_cons_of_pos rfl, List.filter_cons_of_neg (by simp), List.length_cons, List.length_cons, List.length_cons]
        exact ⟨by omega, by omega⟩
  obtain ⟨l1, l2⟩ := hlen answers.flatten
  have hsum : answers.flatten.length = n := by
    rw [List.length_flatten, ha]
    exact (C115_shares n c hc).1
  have hk : m.counters.latencies.length = m.counters.success := by rw [h1.length_eq, l1, h2]
  have hmem : ∀ d, d ∈ m.counters.latencies ↔ some d ∈ answers.flatten := by
    intro d
    rw [h1.mem_iff, List.mem_filterMap]
    constructor
    · rintro ⟨a, ha, rfl⟩; exact ha
    · intro h; exact ⟨some d, h, rfl⟩
  have hs := h1.sum_eq
  unfold report
  cases hl : m.counters.latencies with
  | nil =>
    rw [hl] at hk
    simp only [List.length_nil] at hk
    refine ⟨_, rfl, h2, h3, by simp only; omega, fun _ => ⟨rfl, rfl, rfl⟩, fun h => absurd hk.symm h⟩
  | cons d ds =>
    rw [hl] at hk hs hmem
    simp only [List.length_cons] at hk
    have hlt : ds.length + 1 < 2 ^ 32 := by omega
    dsimp only
    rw [Nat.mod_eq_of_lt hlt]
    rw [if_neg (by omega)]
    obtain ⟨m1, m2⟩ := foldl_min ds d
    obtain ⟨x1, x2⟩ := foldl_max ds d
    refine ⟨_, rfl, h2, h3, by simp only; omega, fun h => absurd h (by simp only; omega), fun _ => ⟨(hmem _).1 m1, (hmem _).1 x1, ?_, ?_, ?_, ?_⟩⟩
    · intro e he
      exact ⟨m2 e ((hmem e).2 he), x2 e ((hmem e).2 he)⟩
    · simp only
      have := (sum_bounds (lo := ds.foldl Nat.min d) (hi := ds.foldl Nat.max d) (d :: ds) fun x hx => ⟨m2 x hx, x2 x hx⟩).1
      rw [Nat.le_div_iff_mul_le (by omega)]
      simpa [Nat.mul_comm] using this
    · simp only
      have := (sum_bounds (lo := ds.foldl Nat.min d) (hi := ds.foldl Nat.max d) (d :: ds) fun x hx => ⟨m2 x hx, x2 x hx⟩).2
      refine Nat.div_le_of_le_mul ?_
      simpa using this
    · simp only [List.sum_cons] at hs
      simp only [hs, hk]

/-- The threads can always go on until they have ended. -/
theorem C115_ends (m : Machine) : ∃ m', m.Steps m' ∧ m'.Done := by
  suffices h : ∀ (n : Nat) (m : Machine), m.threads.flatten.length ≤ n → ∃ m', m.Steps m' ∧ m'.Done from h _ m (Nat.le_refl _)
  intro n
  induction n with
  | zero =>
    intro m hm
    refine ⟨m, .refl m, ?_⟩
    have : m.threads.flatten = [] := List.length_eq_zero_iff.1 (by omega)
    exact List.flatten_eq_nil_iff.1 this
  | succ n ih =>
    intro m hm
    by_cases hd : m.Done
    · exact ⟨m, .refl m, hd⟩
    · unfold Machine.Done at hd
      push Not at hd
      obtain ⟨t, ht, hne⟩ := hd
      obtain ⟨before, after, e⟩ := List.append_of_mem ht
      obtain ⟨s, rest, rfl⟩ := List.exists_cons_of_ne_nil hne
      obtain ⟨ts, c⟩ := m
      simp only at e hm
      subst e
      obtain ⟨m', hs, hd'⟩ := ih ⟨before ++ rest :: after, c.step s⟩ (by simp at hm ⊢; omega)
      refine ⟨m', ?_, hd'⟩
      have trans : ∀ {a b : Machine}, a.Steps b → ∀ z, Machine.Next z a → z.Steps b := by
        intro a b h
        induction h with
        | refl => exact fun z hz => .tail (.refl z) hz
        | tail _ h2 ih => exact fun z hz => .tail (ih z hz) h2
      exact trans hs _ .step

/-- A case: three requests by two threads, one of them answered without success. -/
example : [[some 5, none], [some 7]].map List.length = (List.range 2).map (share 3 2) := by decide

/-- **C115 fails for 2^32 successes:** dividing by their number panics. -/
theorem C115_panics (c : Counters) (h : c.latencies.length = 2 ^ 32) : ∃ w, report c = .error (.panic w) := by
  unfold report
  cases hl : c.latencies with
  | nil => rw [hl] at h; simp at h
  | cons d ds =>
    rw [hl] at h
    simp only [List.length_cons] at h
    refine ⟨"divide by zero error when dividing duration by scalar", ?_⟩
    dsimp only
    rw [h, if_pos (by decide)]
    rfl

/-- **C115, the warm-up.** It makes the number of requests asked for if that is at most ten or a multiple of ten, else fewer, down to the multiple of ten below; asked for none, it
panics. -/
theorem C115_warmup (c : Config) :
    (c.warmup = 0 → ∃ w, warmup c = .error (.panic w)) ∧
    (0 < c.warmup → ∃ l, warmup c = .ok l ∧ l.sum = if c.warmup ≤ 10 then c.warmup else c.warmup / 10 * 10) := by
  unfold warmup
  constructor
  · intro h
    rw [h]
    exact ⟨_, rfl⟩
  · intro h
    have hm : min c.warmup 10 ≠ 0 := by omega
    simp only [hm, if_false]
    refine ⟨_, rfl, ?_⟩
    rw [List.sum_replicate_nat]
    split
    · rename_i h1
      rw [Nat.min_eq_left h1, Nat.div_self h, Nat.mul_one]
    · rename_i h1
      rw [Nat.min_eq_right (by omega), Nat.mul_comm]

/-- **C115, the option without effect.** The number of connections asked for does not change what is tried. -/
theorem C115_concurrent_ignored (c : Config) (n : Nat) : levels { c with concurrent := n } = levels c ∧ warmup { c with concurrent := n } = warmup c := ⟨rfl, rfl⟩

end Bench
